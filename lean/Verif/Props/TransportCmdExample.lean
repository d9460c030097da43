import Verif.Props.TransportCmdRun
import Verif.Props.LzmaExample
/-! A second package, and C99 for the two. -/
namespace Bpak
attribute [local instance] storeLib

set_option maxRecDepth 100000 in
theorem exTrRunD : runOut (some exTrFirst) (((exTrCmds [1, 9, 3]).drop 2).take 1) = some ([.ok], some (exTrMid 9)) := runTo_eq (by decide +kernel)
set_option maxRecDepth 100000 in
theorem exTrRunE : runOut (some (exTrMid 9)) ((exTrCmds [1, 9, 3]).drop 3) = some ([.ok], some (exTrFile 9)) := runTo_eq (by decide +kernel)

theorem exTrRun9 : runOut none (exTrCmds [1, 9, 3]) = some ([.ok, .ok, .ok, .ok], some (exTrFile 9)) :=
  show runOut none ((exTrCmds []).take 2 ++ (((exTrCmds [1, 9, 3]).drop 2).take 1 ++ (exTrCmds [1, 9, 3]).drop 3)) = some ([.ok, .ok] ++ ([.ok] ++ [.ok]), some (exTrFile 9)) from
  runOut_append exTrRunA (runOut_append exTrRunD exTrRunE rfl) rfl

def exTrId : Bytes := ascii "0123456789abcde" ++ [0]

theorem exTr_entries : entries (storedPkg (exTrFile 2)).hdr = [⟨idBpakPackage, 0, exTrId⟩, ⟨idBpakTransport, bpakId (ascii "a"), le32 idBsdiff ++ le32 idBspatch ++ List.replicate 24 0⟩] := by
  rw [exTr_hdr]
  decide +kernel

theorem exTr_part : (usedParts (storedPkg (exTrFile 2)).hdr).map (·.id) = [bpakId (ascii "a")] := by
  rw [exTr_hdr]
  decide +kernel

theorem exTr_place : SamePlace (storedPkg (exTrFile 2)).hdr (storedPkg (exTrFile 2)).hdr := by
  have hm : (⟨idBpakPackage, 16, 0, 0, [0, 0, 0, 0]⟩ : MetaHdr) ∈ usedMetas (storedPkg (exTrFile 2)).hdr := by
    rw [exTr_hdr]
    decide +kernel
  exact ⟨_, hm, _, hm, rfl, rfl, rfl, rfl, rfl⟩

theorem exTr_transportable : ∀ pre q post, usedParts (storedPkg (exTrFile 2)).hdr = pre ++ q :: post → Transportable exHash (storedPkg (exTrFile 2)) true pre q := by
  intro pre q post h
  have hq : q.id ∈ (usedParts (storedPkg (exTrFile 2)).hdr).map (·.id) := by rw [h]; simp
  rw [exTr_part] at hq
  refine .delta idBsdiff idBspatch (List.replicate 24 0) ?_ (.inl ⟨rfl, rfl⟩) rfl
  unfold HasEntry
  rw [exTr_entries, List.mem_singleton.1 hq]
  simp

theorem exTr_hasId : HasEntry (storedPkg (exTrFile 2)).hdr idBpakPackage 0 exTrId := by
  unfold HasEntry
  rw [exTr_entries]
  simp

theorem exTr_short : 29 * (exTrFile 2).length < 2^63 := by
  rw [exTr_len]; omega

/-- A package with part [1, 2, 3] is sent against one with part [1, 9, 3], and restored. -/
example : ∃ e, transportEncodeCmd exHash (fun _ _ _ => some (0, 0)) (some (exTrFile 2)) (some (some (exTrFile 9))) true = .ok e ∧
    transportDecodeCmd exHash (some e) (some (some (exTrFile 9))) true = .ok (exTrFile 2) := by
  obtain ⟨t, h, e⟩ := exTr_session _ rfl _ exTrRun2
  obtain ⟨t', h', e'⟩ := exTr_session _ rfl _ exTrRun9
  refine C99_send_and_restore_partial store_laws exHash exHash_len exScheme exScheme_ok _ (fun o n => exSearch o n) t t' _ _ h h' exTr_transportable ?_ (by rw [e]; simp) exTrId rfl
    exTr_hasId (by rw [exTr_hdr 9, ← exTr_hdr 2]; exact exTr_hasId) (by rw [exTr_hdr 9, ← exTr_hdr 2]; exact exTr_place) exTr_short
  rw [e, e']
  intro c hc
  rw [List.mem_singleton.1 hc]
  exact ⟨_, List.mem_singleton.2 rfl, rfl⟩

/-- With the Python functions, too. -/
theorem exTrPy (out0 : Pkg) : ∃ e, pyTransportEncode (fun _ _ _ => some (0, 0)) (storedPkg (exTrFile 2)) out0 (some (storedPkg (exTrFile 9))) = .ok e ∧ (pkgOpen exHash false e.file).1 = .ok ∧
    ∃ e' out, pyTransportDecode exHash (pkgOpen exHash false e.file).2 (pkgOpen exHash true []).2 (some (storedPkg (exTrFile 9))) = .ok (e', out) ∧ out.file = exTrFile 2 := by
  obtain ⟨t, h, e⟩ := exTr_session _ rfl _ exTrRun2
  obtain ⟨t', h', e'⟩ := exTr_session _ rfl _ exTrRun9
  refine C99_python_partial store_laws exHash exHash_len exScheme exScheme_ok _ (fun o n => exSearch o n) t _ h (some (exTrFile 9)) exTr_transportable (by rw [e]; simp) exTr_short ?_ _ _
    (by rw [(new_output exHash exHash_len).2]; omega)
  intro g hg
  cases hg
  refine ⟨t', h', ?_, by rw [exTr_hdr 9, ← exTr_hdr 2]; exact exTr_place, exTrId, rfl, exTr_hasId, by rw [exTr_hdr 9, ← exTr_hdr 2]; exact exTr_hasId⟩
  rw [e, e']
  intro c hc
  rw [List.mem_singleton.1 hc]
  exact ⟨_, List.mem_singleton.2 rfl, rfl⟩

/-- The output object does not know what was decoded: its header is still that of an empty package, which has no entries. -/
example : ∃ inp org inp' out', pyTransportDecode exHash inp (pkgOpen exHash true []).2 (some org) = .ok (inp', out') ∧ out'.file = exTrFile 2 ∧ out'.hdr ≠ parseHeader (out'.file.take 4096) := by
  obtain ⟨e, -, -, e', out, h, hf⟩ := exTrPy ⟨initHeader, [], []⟩
  refine ⟨_, _, e', out, h, hf, ?_⟩
  obtain ⟨p, eo, g, s, -, -, -, hp⟩ := C56_open_new exHash exHash_len
  rw [eo] at h
  rw [(C99_python_output_object_is_false exHash _ _ _ g.wf _ _ h).1, hf]
  intro hh
  have t := exTr_hasId
  unfold HasEntry storedPkg at t
  simp only at t
  rw [← show p.hdr = parseHeader ((exTrFile 2).take 4096) from hh, hp] at t
  rw [show entries { initHeader with payloadHash := exHash hashSha256 [] ++ List.replicate 32 0 } = [] by decide +kernel] at t
  cases t

/-- Another package, with another id and no parts. -/
def exTrOther : List (Cmd Unit) := [.create none none false 0, .addMeta { name := ascii "bpak-package", source := .text (ascii "0123456789ABCDE") }]

def exTrOtherFile : Bytes := unrle [(50, 1), (65, 1), (80, 1), (66, 1), (0, 4), (63, 1), (31, 1), (47, 1), (251, 1), (16, 1), (0, 1531), (48, 1), (49, 1), (50, 1), (51, 1), (52, 1), (53, 1), (54, 1), (55, 1), (56, 1), (57, 1), (65, 1), (66, 1), (67, 1), (68, 1), (69, 1), (0, 1905), (1, 1), (2, 1), (0, 1), (2, 1), (0, 628)]

set_option maxRecDepth 100000 in
theorem exTrRunO : runOut none exTrOther = some ([.ok, .ok], some exTrOtherFile) := runTo_eq (by decide +kernel)

theorem exTrOther_session : ∃ t, Session exHash exScheme t (some exTrOtherFile) := by
  have := runCmds_session exTrOther [] none _ (some exTrOtherFile) ?_ .start (runOut_eq exTrRunO)
  · exact ⟨_, this⟩
  · intro c hc f hf
    simp only [exTrOther, List.mem_cons, List.not_mem_nil, or_false] at hc
    rcases hc with rfl | rfl
    · trivial
    · exact show bpakId (ascii "bpak-package") ≠ 0 by decide +kernel

/-- The package is not sent against that one. -/
example : transportEncodeCmd exHash (fun _ _ _ => some (0, 0)) (some (exTrFile 2)) (some (some exTrOtherFile)) true = .fail .packageUuidMismatch := by
  obtain ⟨t, h, -⟩ := exTr_session _ rfl _ exTrRun2
  obtain ⟨t', h'⟩ := exTrOther_session
  refine C99_encode_other_package exHash exHash_len exScheme exScheme_ok _ t t' _ _ h h' exTrId (ascii "0123456789ABCDE" ++ [0]) rfl rfl (by decide) exTr_hasId ?_
  unfold HasEntry
  have : entries (storedPkg exTrOtherFile).hdr = [⟨idBpakPackage, 0, ascii "0123456789ABCDE" ++ [0]⟩] := by decide +kernel
  rw [this]
  simp

/-- Without an origin. -/
example : transportEncodeCmd exHash (fun _ _ _ => some (0, 0)) (some (exTrFile 2)) none true = .ub := by
  obtain ⟨t, h, -⟩ := exTr_session _ rfl _ exTrRun2
  exact (C99_no_origin_is_false exHash exHash_len exScheme exScheme_ok _ t _ h).1

end Bpak
