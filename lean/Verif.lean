import Verif.Props.Id
import Verif.Props.Meta
import Verif.Props.Part
import Verif.Props.Header
import Verif.Props.Utils
import Verif.Props.Patch
import Verif.Props.Bsdiff
import Verif.Props.Merkle
import Verif.Props.Verify
import Verif.Props.Pkg
import Verif.Props.PkgSign
import Verif.Props.PkgDelete
import Verif.Props.PkgHistory
import Verif.Props.HsDec
import Verif.Props.HsEnc
import Verif.Props.HsDelta
import Verif.Props.Transport
import Verif.Props.TransportSize
import Verif.Props.TransportId
import Verif.Props.TransportEx
import Verif.Props.DeltaSize
import Verif.Props.PkgTree
import Verif.Props.BuildHistory
import Verif.Props.Show
import Verif.Props.Keystore
import Verif.Props.Compare
import Verif.Props.Set
import Verif.Props.SetValue
import Verif.Props.Add
import Verif.Props.Create
import Verif.Props.SignRaw
import Verif.Props.Report
import Verif.Props.ShowOne
import Verif.Props.VerifyKeystore
import Verif.Spec.Session
import Verif.Props.Session
import Verif.Props.SessionExample
import Verif.Props.Names
import Verif.Props.CliChanges
import Verif.Model.Python
import Verif.Spec.Python
import Verif.Proof.Python
import Verif.Props.PySession
import Verif.Props.Python
import Verif.Props.PyMeta
import Verif.Props.PyAdd
import Verif.Props.PyExample
import Verif.Props.EncodeTwice
import Verif.Props.Offsets
import Verif.Props.Generate
import Verif.Props.GenerateExample
import Verif.Props.TransportCmd
import Verif.Props.TransportCmdExample
import Verif.Model.Lzma
import Verif.Spec.Lzma
import Verif.Proof.Lzma
import Verif.Props.Lzma
import Verif.Props.LzmaExample
import Verif.Model.Crypto
import Verif.Spec.Crypto
import Verif.Props.Crypto
import Verif.Props.SessionBuild
import Verif.Props.SignVerify
import Verif.Props.SignVerifyExample
import Verif.Props.PyRead
import Verif.Model.Sais
import Verif.Spec.SuffixArray
import Verif.Model.BsdiffInit
import Verif.Proof.SaisCompact
import Verif.Proof.SaisFinal
import Verif.Proof.SaisHeap
import Verif.Proof.SaisInduce
import Verif.Proof.SaisLms
import Verif.Proof.SaisLms1
import Verif.Proof.SaisLms2
import Verif.Proof.SaisLms2S
import Verif.Proof.SaisMain
import Verif.Proof.SaisMark
import Verif.Proof.SaisMem
import Verif.Proof.SaisName
import Verif.Proof.SaisOrder
import Verif.Proof.SaisPass
import Verif.Proof.SaisPlace
import Verif.Proof.SaisPost
import Verif.Proof.SaisReduce
import Verif.Proof.SaisSeed
import Verif.Proof.SaisSeg
import Verif.Proof.SaisSorted
import Verif.Proof.SaisSpread
import Verif.Proof.SaisStage
import Verif.Proof.SaisStage1
import Verif.Proof.SaisText
import Verif.Proof.BsdiffInit
import Verif.Props.SuffixArray
import Verif.Props.GenerateNames
import Verif.Props.OwnSearch
import Verif.Props.OwnSearchExample
import Verif.Props.Disk
import Verif.Props.CryptoAccept
import Verif.Model.Getopt
import Verif.Model.Main
import Verif.Spec.Main
import Verif.Spec.Lines
import Verif.Proof.Main
import Verif.Proof.MainFrame
import Verif.Proof.Lines
import Verif.Props.Main
import Verif.Props.MainFrame
import Verif.Props.MainOrder
import Verif.Props.Lines
import Verif.Props.MainFindings
import Verif.Props.MainExample
import Verif.Proof.LinesOut
import Verif.Props.LinesOut
import Verif.Props.LinesSign
import Verif.Props.LinesExample
import Verif.Spec.MetaHistory
import Verif.Proof.MetaHistory
import Verif.Props.MetaHistory
import Verif.Props.MetaHistoryExample
import Verif.Props.MetaLinesExample
import Verif.Spec.Resource
import Verif.Proof.ResourcePy
import Verif.Props.Resource
import Verif.Spec.Getopt
import Verif.Proof.Getopt
import Verif.Props.Getopt
import Verif.Model.Hooks
import Verif.Spec.Hooks
import Verif.Proof.Hooks
import Verif.Props.Hooks
import Verif.Model.Extract
import Verif.Spec.Extract
import Verif.Proof.Extract
import Verif.Props.Extract
import Verif.Spec.MerkleIo
import Verif.Proof.MerkleIo
import Verif.Props.MerkleIo
import Verif.Model.SamePath
import Verif.Spec.SamePath
import Verif.Proof.SamePath
import Verif.Props.SamePath
import Verif.Model.PatchIo
import Verif.Spec.PatchIo
import Verif.Proof.PatchIo
import Verif.Props.PatchIo
import Verif.Model.DecodeIo
import Verif.Spec.DecodeIo
import Verif.Proof.DecodeIo
import Verif.Props.DecodeIo
import Verif.Model.DiffIo
import Verif.Spec.DiffIo
import Verif.Proof.DiffIo
import Verif.Proof.DiffPlace
import Verif.Props.DiffIo
