import Verif.Proof.DecodeIo
import Verif.Props.TransportEx
/-! C127: a transport package decoded through callbacks that can fail. -/
namespace Bpak
variable [LzmaLib] {σ : Type}

/-- C127: a package sent as a delta (or as it is) and decoded through callbacks that can fail: the decoder succeeds, and then the package is behind
the callbacks, byte for byte; or it gives what a callback answered, or the code for one that fell short. For every honest set of callbacks,
whatever fails and when. `SamePlace`, as in C38: the decoder accepts the origin. `s` holds at most a header. -/
theorem C127_decoded_or_reported (L : LzmaLaws) (H : HashFn) (hH : HashLen H) (srch : Bytes → Bytes → Int → Option (Int × Int)) (hsr : ∀ o n, SearchOk o n (srch o n))
    (inp : Pkg) (org : Option Pkg) (hs : Sendable H inp org.isSome) (ho : ∀ o, org = some o → OriginFor inp o) (hp : ∀ o, org = some o → SamePlace inp.hdr o.hdr)
    (hne : usedParts inp.hdr ≠ []) (out0 : Bytes) (eh : Header) (ef : Bytes) (he : transportEncode srch inp.hdr inp.file (org.map Pkg.pair) out0 = .ok (eh, ef))
    (io : DecIo σ) (view : σ → Bytes) (origin : Bytes) (hor : ∀ o, org = some o → o.file = origin) (hio : HonestDec io view origin) (hz : ¬ FromDecIo io .ok)
    (s : σ) (hout : (view s).length ≤ 4096) :
    (∃ s', transportDecodeIo H io eh ef (org.map Pkg.pair) s = .ok (inp.hdr, s') ∧ view s' = inp.file) ∨
    (∃ e, transportDecodeIo H io eh ef (org.map Pkg.pair) s = .fail e ∧ FromDecIo io e) := by
  have h := C38_round_trip_partial L H hH srch hsr inp org hs ho hp hne out0 eh ef he (view s) hout
  have hof : ∀ oh of, org.map Pkg.pair = some (oh, of) → of = origin := by
    intro oh of h
    cases org with
    | none => cases h
    | some o =>
      injection h with h
      have := hor o rfl
      rw [← this]
      exact (congrArg Prod.snd h).symm
  have hd := decode_sim H hio hz eh ef (org.map Pkg.pair) hof s
  rw [h] at hd
  generalize transportDecodeIo H io eh ef (org.map Pkg.pair) s = w at hd
  cases hd with
  | bad e _ h1 => exact Or.inr ⟨e, rfl, h1⟩
  | ok x y h1 =>
    obtain ⟨a, s'⟩ := x
    obtain ⟨h2, h3⟩ := h1
    dsimp only at h2 h3
    subst h2
    exact Or.inl ⟨s', rfl, h3⟩

/-- C127, for every transport package, whatever it holds, every origin and whatever is behind the callbacks: decoding gives what it gives over a
file (the same header and the same bytes, the same refusal, the same undefined behaviour), or reports what a callback answered. -/
theorem C127_any_package (H : HashFn) (io : DecIo σ) (view : σ → Bytes) (origin : Bytes) (hio : HonestDec io view origin) (hz : ¬ FromDecIo io .ok)
    (patch : Header) (inp : Bytes) (org : Option Header) (s : σ) :
    (∃ e, transportDecodeIo H io patch inp (org.map (·, origin)) s = .fail e ∧ FromDecIo io e) ∨
    match transportDecode H patch inp (org.map (·, origin)) (view s) with
    | .ok (h, f) => ∃ s', transportDecodeIo H io patch inp (org.map (·, origin)) s = .ok (h, s') ∧ view s' = f
    | .fail e => transportDecodeIo H io patch inp (org.map (·, origin)) s = .fail e
    | .ub => transportDecodeIo H io patch inp (org.map (·, origin)) s = .ub
    | .hang => transportDecodeIo H io patch inp (org.map (·, origin)) s = .hang := by
  have hof : ∀ oh of, org.map (·, origin) = some (oh, of) → of = origin := by
    intro oh of h
    cases org with
    | none => cases h
    | some o =>
      injection h with h
      exact (congrArg Prod.snd h).symm
  have hd := decode_sim H hio hz patch inp (org.map (·, origin)) hof s
  generalize transportDecodeIo H io patch inp (org.map (·, origin)) s = u at hd
  generalize transportDecode H patch inp (org.map (·, origin)) (view s) = v at hd
  cases hd with
  | bad e _ h1 => exact Or.inl ⟨e, rfl, h1⟩
  | fail e => exact Or.inr rfl
  | ub => exact Or.inr rfl
  | hang => exact Or.inr rfl
  | ok x y h1 =>
    obtain ⟨a, s'⟩ := x
    obtain ⟨b, f⟩ := y
    obtain ⟨h2, h3⟩ := h1
    dsimp only at h2 h3
    subst h2
    exact Or.inr ⟨s', rfl, h3⟩

/-- Callbacks over a file and a list of results to come: each write consumes one; one that fails has written half. Reads always succeed. -/
def luckyDec (origin : Bytes) : DecIo (Bytes × List Bool) where
  wr s off b := if s.2.headD true then ((fileWrite s.1 off b, s.2.tail), .ok b.length)
    else ((fileWrite s.1 off (b.take (b.length / 2)), s.2.tail), .error .writeError)
  rd s off n := .ok (fileRead s.1 off n)
  org _ off n := if 0 ≤ off then .ok (fileRead origin off.toNat n) else .error .readError
  hd s b := if s.2.headD true then ((fileWrite s.1 0 b, s.2.tail), .ok b.length)
    else ((s.1, s.2.tail), .ok 0)

theorem luckyDec_honest (origin : Bytes) : HonestDec (luckyDec origin) (·.1) origin := by
  refine ⟨?_, ?_, ?_, ?_⟩
  · intro s off b s' n h hn
    unfold luckyDec at h
    dsimp only at h
    split at h
    · injection h with h1 h2; rw [← h1]
    · injection h with h1 h2; cases h2
  · intro s b s' n h hn
    unfold luckyDec at h
    dsimp only at h
    split at h
    · injection h with h1 h2; rw [← h1]
    · injection h with h1 h2
      injection h2 with h2
      have hb : b = [] := List.length_eq_zero_iff.1 (by omega)
      subst hb
      rw [← h1]
      exact (fileWrite_nil _ _).symm
  · intro s off n x h hx
    injection h with h
    exact h.symm
  · intro s off n x h hx
    unfold luckyDec at h
    dsimp only at h
    split at h
    · injection h with h; exact ⟨by assumption, h.symm⟩
    · cases h

theorem luckyDec_codes (origin : Bytes) : ¬ FromDecIo (luckyDec origin) .ok := by
  intro h
  cases h with
  | wr s off b s' e h =>
    unfold luckyDec at h
    dsimp only at h
    split at h <;> (injection h with h1 h2; cases h2)
  | hd s b s' e h =>
    unfold luckyDec at h
    dsimp only at h
    split at h <;> (injection h with h1 h2; cases h2)
  | rd s off n e h => cases h
  | org s off n e h =>
    unfold luckyDec at h
    dsimp only at h
    split at h <;> cases h
  | shortWr s off b s' n e h hn he => rcases he with h | h <;> cases h

/-- C127: any data in a copied part and in a part sent as an LZMA-compressed delta with a hash tree, any data in the origin, any pattern of
failures of the callbacks above. -/
example (L : LzmaLaws) (A F A' F' T' out : Bytes) (lucky : List Bool) (hF : TreeSupported F.length) (hA : A.length < 2^50)
    (hs : A'.length + F'.length + T'.length < 2^62) (hout : out.length ≤ 4096) :
    ∃ eh ef, transportEncode (fun _ _ _ => some (0, 0)) (trPkg (exBaseA exUuid) A F (hashTree exHash exSalt F)).hdr (trPkg (exBaseA exUuid) A F (hashTree exHash exSalt F)).file
        (some (trPkg (exBaseA exUuid) A' F' T').pair) [] = .ok (eh, ef) ∧
      ((∃ s', transportDecodeIo exHash (luckyDec (trPkg (exBaseA exUuid) A' F' T').file) eh ef (some (trPkg (exBaseA exUuid) A' F' T').pair) (out, lucky) =
          .ok ((trPkg (exBaseA exUuid) A F (hashTree exHash exSalt F)).hdr, s') ∧ s'.1 = (trPkg (exBaseA exUuid) A F (hashTree exHash exSalt F)).file) ∨
        (∃ e, transportDecodeIo exHash (luckyDec (trPkg (exBaseA exUuid) A' F' T').file) eh ef (some (trPkg (exBaseA exUuid) A' F' T').pair) (out, lucky) = .fail e)) := by
  have hT := exTree_len F hF
  have hF3 := hF.2.2
  have sd := exSendable A F hF hA
  have og := exOriginFor A F A' F' T' (exBaseA exUuid) exWfA.1 rfl (exMetasA_good exUuid) (by unfold HasEntry; rw [exEntriesA]; simp) hs
  have og' : ∀ p, some (trPkg (exBaseA exUuid) A' F' T') = some p → OriginFor (trPkg (exBaseA exUuid) A F (hashTree exHash exSalt F)) p := fun p e => Option.some.inj e ▸ og
  have mm : (⟨idBpakPackage, 16, 0, 0, [0,0,0,0]⟩ : MetaHdr) ∈ usedMetas (exBaseA exUuid) := by decide +kernel
  have l := (exGood (exBaseA exUuid) exWfA.1 rfl A F (hashTree exHash exSalt F) (by omega)).2.2
  obtain ⟨eh, ef, e, _⟩ := C38_encode L exHash _ (fun o n => exSearch o n) _ (some _) sd og' (by omega) []
  refine ⟨eh, ef, e, ?_⟩
  rcases C127_decoded_or_reported L exHash exHash_len _ (fun o n => exSearch o n) _ (some _) sd og' (fun p hp => Option.some.inj hp ▸ ⟨_, mm, _, mm, rfl, rfl, rfl, rfl, rfl⟩)
    (by show usedParts (trHdr (exBaseA exUuid) A F _) ≠ []; rw [exUsed]; exact List.cons_ne_nil _ _) [] eh ef e
    (luckyDec (trPkg (exBaseA exUuid) A' F' T').file) (·.1) _ (fun p hp => Option.some.inj hp ▸ rfl) (luckyDec_honest _) (luckyDec_codes _) (out, lucky) hout with h | ⟨e, h, _⟩
  · exact Or.inl h
  · exact Or.inr ⟨e, h⟩

/-- C127: a failure: the first write of the header falls short. -/
example (A F T inp f : Bytes) (ls : List Bool) :
    transportDecodeIo exHash (luckyDec []) (trHdr (exBaseA exUuid) A F T) inp none (f, false :: ls) = .fail .writeError := by
  have wf := exWfA.1
  have hl : (trHdr (exBaseA exUuid) A F T).image.length ≠ 0 := by
    have w : (trHdr (exBaseA exUuid) A F T).WF := ⟨wf.1, wf.2.1, rfl, wf.2.2.2⟩
    rw [image_length w]
    decide
  have hh : ioHead (luckyDec []) (f, false :: ls) (trHdr (exBaseA exUuid) A F T) = ((f, ls), some .writeError) := by
    show ((f, ls), if 0 ≠ (trHdr (exBaseA exUuid) A F T).image.length then some Err.writeError else none) = _
    rw [if_pos (Ne.symm hl)]
  have hst : ∀ d : TDec, d.hdr = trHdr (exBaseA exUuid) A F T → decodeStartIo (luckyDec []) d (f, false :: ls) 0 = .fail .writeError := by
    intro d hd
    have hq : ∃ q, (trHdr (exBaseA exUuid) A F T).parts[0]? = some q := ⟨_, rfl⟩
    obtain ⟨q, hq⟩ := hq
    unfold decodeStartIo
    rw [hd, hq]
    dsimp only
    rw [hh]
  unfold transportDecodeIo decodeInit
  dsimp only
  unfold decodeGoIo decodeOneIo
  rw [hst _ rfl]
  rfl

end Bpak
