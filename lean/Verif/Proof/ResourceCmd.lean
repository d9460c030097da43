import Verif.Proof.ResourceLib

/-!
# Transport coding, commands and programs
-/

namespace Bpak.Res

open Bpak.Spec

variable {over : Bool} {l : Luck} {L : List (Nat × Kind)}

theorem filter_mid {C : List (Nat × Kind)} {n : Nat} {k : Kind} (h : ((C ++ (n, k) :: L).map Prod.fst).Nodup) :
    (C ++ (n, k) :: L).filter (fun x => x.1 ≠ n) = C ++ L := by
  rw [List.map_append, List.nodup_append] at h
  rw [List.filter_append, filter_head h.2.1]
  congr 1
  refine List.filter_eq_self.2 fun x hx => decide_eq_true fun he => ?_
  exact h.2.2 x.1 (List.mem_map.2 ⟨x, hx, rfl⟩) n (by simp) he

theorem Runs.give_mid {β : Type} {Q : β → List (Nat × Kind) → Prop} {C : List (Nat × Kind)} {n : Nat} {was how : Kind}
    {f : Unit → M β} (hf : Fits over was how) (h : Runs over l (C ++ L) (f ()) Q) :
    Runs over l (C ++ (n, was) :: L) (Res.give how (.to n) >>= f) Q := by
  intro s hs
  have := hs.gave (List.mem_append_right _ List.mem_cons_self) hf
  rw [filter_mid hs.nodup] at this
  exact h _ this

/-- Closing a package that is open, when something else was left since. -/
theorem pkgClose_mid {β : Type} {Q : β → List (Nat × Kind) → Prop} {C : List (Nat × Kind)} {i : Nat} {f : Ptr → M β}
    (h : Runs over l (C ++ L) (f .null) Q) : Runs over l (C ++ (i, .file) :: L) (pkgClose (.to i) >>= f) Q :=
  Runs.assoc (Runs.give_mid (fits_same _) (Runs.pure_bind h))

/-! ## Programs on one package -/

theorem runCalls_runs {fp : Nat} {k : Kind} (hm : Enough l) (cs : List Call)
    (hc : over = false ∨ ∀ c ∈ cs, c.own = true) : ∀ {L : List (Nat × Kind)}, (fp, k) ∈ L →
    Runs over l L (runCalls (.to fp) cs) fun _ L' => Contexts L L' := by
  induction cs with
  | nil => exact fun _ => Runs.pure .refl
  | cons c cs ih =>
    intro L h
    refine Runs.bind (call_runs c hm (hc.imp_right fun h => h c List.mem_cons_self) h) fun _ L1 h1 => ?_
    refine (ih (hc.imp_right fun h => fun c hc => h c (List.mem_cons_of_mem _ hc)) (h1.mem h)).mono fun _ L2 h2 => ?_
    exact h1.trans h2

theorem session_runs (n : Nat) (cs : List Call) (hm : Enough l) (hc : over = false ∨ ∀ c ∈ cs, c.own = true) :
    Runs over l L (session n cs) fun _ L' => Contexts L L' := by
  unfold session
  refine pkgOpen_then (fun _ => Runs.pure .refl) fun i _ => ?_
  dsimp only
  refine Runs.bind (runCalls_runs hm cs hc List.mem_cons_self) fun _ L1 h1 => ?_
  obtain ⟨C, hC, rfl⟩ := h1
  exact pkgClose_mid (Runs.pure ⟨C, hC, rfl⟩)

/-- What a run from the beginning ends with. -/
theorem trace_runs {α : Type} {m : M α} {Q : α → List (Nat × Kind) → Prop} (h : Runs over l [] m Q) :
    Clean over (trace l m) ∧ ∃ L', Q (m l ⟨0, 0, []⟩).1 L' ∧ ∀ n k, (n, k) ∈ L' ↔ Left (trace l m) n k := by
  obtain ⟨L', h1, h2⟩ := h ⟨0, 0, []⟩ ⟨fun i hi => absurd hi (Nat.not_lt_zero _),
    fun n k => ⟨fun h => (nomatch h), fun h => (nomatch h.1)⟩, fun n k h => (nomatch h), List.nodup_nil, fun n k h => (nomatch h)⟩
  exact ⟨h1.clean, L', h2, h1.held⟩

theorem trace_keeps {α : Type} {m : M α} (h : Keeps over l [] m) : Tidy over (trace l m) := by
  obtain ⟨h1, L', rfl, h3⟩ := trace_runs h
  exact ⟨h1, fun n k hl => nomatch (h3 n k).2 hl⟩

/-! ## Deltas -/

/-- What an encoder holds after `compressor_init`, on top of what was held before. -/
def CompHeld (c : Comp) (L : List (Nat × Kind)) (p q : Ptr) (L' : List (Nat × Kind)) : Prop :=
  match c with
  | .none => p = .null ∧ q = .null ∧ L' = L
  | .hs => ∃ i, p = .to i ∧ q = .null ∧ L' = (i, .lib) :: L
  | .lzma => ∃ i j, p = .to i ∧ q = .to j ∧ L' = (j, .heap) :: (i, .lib) :: L

theorem compressorInit_runs (c : Comp) (hc : c ≠ .lzma ∨ Enough l) : Runs over l L (compressorInit c) fun r L' =>
    (r.1 = false ∧ L' = L) ∨ ∃ p q, r = (true, p, q) ∧ CompHeld c L p q L' := by
  cases c with
  | none => exact Runs.pure (Or.inr ⟨_, _, rfl, rfl, rfl, rfl⟩)
  | hs =>
    refine Runs.alloc (Or.inr (Runs.pure (Or.inl ⟨rfl, rfl⟩))) fun i _ => ?_
    exact Runs.use List.mem_cons_self (Runs.pure (Or.inr ⟨_, _, rfl, i, rfl, rfl, rfl⟩))
  | lzma =>
    have hm : Enough l := hc.elim (fun h => absurd rfl h) id
    refine Runs.alloc (Or.inl hm) fun i _ => Runs.ask fun b => ?_
    cases b with
    | false => exact Runs.giveMem (fits_same _) (Runs.pure (Or.inl ⟨rfl, rfl⟩))
    | true =>
      dsimp only
      refine Runs.use List.mem_cons_self (Runs.alloc (Or.inl hm) fun j _ => ?_)
      exact Runs.pure (Or.inr ⟨_, _, rfl, i, j, rfl, rfl, rfl⟩)

theorem compressorFree_then {β : Type} {Q : β → List (Nat × Kind) → Prop} {c : Comp} {p q : Ptr}
    {L' : List (Nat × Kind)} {f : Unit → M β} (ho : over = false ∨ c ≠ .lzma) (h : CompHeld c L p q L')
    (hf : Runs over l L (f ()) Q) : Runs over l L' (compressorFree c p q >>= f) Q := by
  cases c with
  | none => obtain ⟨rfl, rfl, rfl⟩ := h; exact hf
  | hs => obtain ⟨i, rfl, rfl, rfl⟩ := h; exact Runs.giveMem (fits_same _) hf
  | lzma =>
    obtain rfl : over = false := ho.elim id fun h => absurd rfl h
    obtain ⟨i, j, rfl, rfl, rfl⟩ := h
    refine Runs.assoc (Runs.use (List.mem_cons_of_mem _ List.mem_cons_self) ?_)
    exact Runs.assoc (Runs.giveMem fits_heap_lib (Runs.giveMem (fits_same _) hf))

theorem bsdiffInit_runs (n : Nat) (c : Comp) (ho : over = false ∨ c ≠ .lzma) (hc : c ≠ .lzma ∨ Enough l) :
    Runs over l L (bsdiffInit n c) fun b L' => (b.ok = false ∧ L' = L) ∨
      ∃ p q i L1, b = ⟨true, p, q, .to i⟩ ∧ CompHeld c L p q L1 ∧ L' = (i, .lib) :: L1 := by
  unfold bsdiffInit
  refine Runs.bind (compressorInit_runs c hc) fun r L1 h1 => ?_
  obtain ⟨ok, p, q⟩ := r
  rcases h1 with ⟨h, rfl⟩ | ⟨p', q', h, h1⟩
  · cases h
    exact Runs.pure (Or.inl ⟨rfl, rfl⟩)
  · obtain ⟨rfl, rfl, rfl⟩ : ok = true ∧ p = p' ∧ q = q' := by simpa using h
    dsimp only
    refine Runs.alloc (Or.inr ?_) fun i _ => ?_
    · exact compressorFree_then ho h1 (Runs.pure (Or.inl ⟨rfl, rfl⟩))
    · dsimp only
      refine Runs.use List.mem_cons_self (Keeps.then (sais_keeps n _) fun b => ?_)
      cases b with
      | false =>
        exact Runs.giveMem (fits_same _) (compressorFree_then ho h1 (Runs.pure (Or.inl ⟨rfl, rfl⟩)))
      | true => exact Runs.pure (Or.inr ⟨p, q, i, L1, rfl, h1, rfl⟩)

theorem CompHeld.sub {c : Comp} {p q : Ptr} {L' : List (Nat × Kind)} (h : CompHeld c L p q L') {x : Nat × Kind}
    (hx : x ∈ L) : x ∈ L' := by
  cases c with
  | none => obtain ⟨_, _, rfl⟩ := h; exact hx
  | hs => obtain ⟨i, _, _, rfl⟩ := h; exact List.mem_cons_of_mem _ hx
  | lzma => obtain ⟨i, j, _, _, rfl⟩ := h; exact List.mem_cons_of_mem _ (List.mem_cons_of_mem _ hx)

theorem transportBsdiff_keeps {n inp out org : Nat} {k1 k2 k3 : Kind} (c : Comp) (ho : over = false ∨ c ≠ .lzma)
    (hc : c ≠ .lzma ∨ Enough l) (hi : (inp, k1) ∈ L) (hu : (out, k2) ∈ L) (hg : (org, k3) ∈ L) :
    Keeps over l L (transportBsdiff n c (.to inp) (.to out) (.to org)) := by
  unfold transportBsdiff
  refine Keeps.then (by keepsLib) fun b => ?_
  cases b with
  | false => exact Keeps.pure
  | true =>
    dsimp only
    refine Runs.use hi (Runs.take Keeps.pure fun t _ => ?_)
    dsimp only
    refine Keeps.then (by keepsLib) fun b => ?_
    cases b with
    | false => exact Runs.give (fits_same _) Keeps.pure
    | true =>
      dsimp only
      refine Runs.use (List.mem_cons_of_mem _ hg) (Runs.take ?_ fun o _ => ?_)
      · exact Runs.give (fits_same _) Keeps.pure
      dsimp only
      refine Runs.bind (bsdiffInit_runs n c ho hc) fun b L1 h1 => ?_
      rcases h1 with ⟨h, rfl⟩ | ⟨p, q, i, L1, rfl, h1, rfl⟩
      · rw [h]
        exact Runs.give (fits_same _) (Runs.give (fits_same _) Keeps.pure)
      · dsimp only
        have hsub : ∀ {x : Nat × Kind}, x ∈ (o, Kind.map) :: (t, Kind.map) :: L → x ∈ (i, Kind.lib) :: L1 :=
          fun hx => List.mem_cons_of_mem _ (h1.sub hx)
        refine Keeps.then (Keeps.rounds ?_ _) fun b => ?_
        · refine Keeps.useThen (k := .map) (hsub List.mem_cons_self) ?_
          refine Keeps.useThen (k := .map) (hsub (List.mem_cons_of_mem _ List.mem_cons_self)) ?_
          refine Keeps.useThen (k := .lib) List.mem_cons_self ?_
          exact Keeps.io (hsub (List.mem_cons_of_mem _ (List.mem_cons_of_mem _ hu)))
        refine Runs.assoc (Runs.giveMem (fits_same _) ?_)
        refine compressorFree_then ho h1 ?_
        exact Runs.give (fits_same _) (Runs.give (fits_same _) Keeps.pure)

/-- No delta is compressed with LZMA. -/
def NoLzma (ps : List Coding) : Prop := Coding.delta .lzma ∉ ps

theorem encodePart_keeps {n inp out org : Nat} {k1 k2 k3 : Kind} (p : Coding) (ho : over = false ∨ p ≠ .delta .lzma)
    (hm : Enough l) (hi : (inp, k1) ∈ L) (hu : (out, k2) ∈ L) (hg : (org, k3) ∈ L) :
    Keeps over l L (encodePart n (.to inp) (.to out) (.to org) p) := by
  cases p with
  | copy => unfold encodePart; keepsLib
  | other => unfold encodePart; keepsLib
  | delta c =>
    unfold encodePart
    refine Keeps.then (by keepsLib) fun b => ?_
    cases b with
    | false => exact Keeps.pure
    | true =>
      exact transportBsdiff_keeps c (ho.imp_right fun h he => h (he ▸ rfl)) (Or.inr hm) hi hu hg

theorem encode_keeps {n inp out org : Nat} {k1 k2 k3 : Kind} (ps : List Coding) (ho : over = false ∨ NoLzma ps)
    (hm : Enough l) (hi : (inp, k1) ∈ L) (hu : (out, k2) ∈ L) (hg : (org, k3) ∈ L) :
    Keeps over l L (encode n ps (.to inp) (.to out) (.to org)) := by
  have hp : Keeps over l L (encodeParts n (.to inp) (.to out) (.to org) ps) := by
    induction ps with
    | nil => exact Keeps.pure
    | cons p ps ih =>
      refine Keeps.then (encodePart_keeps p (ho.imp_right fun h => fun he => h (he ▸ List.mem_cons_self)) hm hi hu hg)
        fun b => ?_
      cases b with
      | false => exact Keeps.pure
      | true => exact ih (ho.imp_right fun h => fun hx => h (List.mem_cons_of_mem _ hx))
  exact Keeps.steps_cons Keeps.ask (Keeps.steps_cons hp (by keepsLib))

/-- Nothing is left but the insides of LZMA decoders, and none unless some delta is compressed with LZMA. -/
def Decoders (ps : List Coding) (L L' : List (Nat × Kind)) : Prop :=
  ∃ C : List (Nat × Kind), (∀ x ∈ C, x.2 = .heap) ∧ (NoLzma ps → C = []) ∧ L' = C ++ L

theorem Decoders.same {ps : List Coding} : Decoders ps L L := ⟨[], by simp, fun _ => rfl, rfl⟩

theorem decodeStart_runs {out : Nat} {k : Kind} (p : Coding) (hu : (out, k) ∈ L) :
    Runs over l L (decodeStart (.to out) p) fun r L' =>
      (r.2 = .null ∧ L' = L) ∨ ∃ i, r = (true, .to i) ∧ p = .delta .lzma ∧ L' = (i, .heap) :: L := by
  cases p with
  | copy => exact Keeps.then (by keepsLib) fun b => Runs.pure (Or.inl ⟨rfl, rfl⟩)
  | other => exact Keeps.then (by keepsLib) fun b => Runs.pure (Or.inl ⟨rfl, rfl⟩)
  | delta c =>
    refine Keeps.then (by keepsLib) fun b => ?_
    cases b with
    | false => exact Runs.pure (Or.inl ⟨rfl, rfl⟩)
    | true =>
      cases c with
      | none => exact Runs.pure (Or.inl ⟨rfl, rfl⟩)
      | hs => exact Runs.pure (Or.inl ⟨rfl, rfl⟩)
      | lzma =>
        refine Runs.alloc (Or.inr (Runs.pure (Or.inl ⟨rfl, rfl⟩))) fun i _ => ?_
        exact Runs.pure (Or.inr ⟨i, rfl, rfl, rfl⟩)

theorem decodePart_runs {n inp out org : Nat} {k1 k2 k3 : Kind} (p : Coding) (ho : over = false ∨ p ≠ .delta .lzma)
    (hi : (inp, k1) ∈ L) (hu : (out, k2) ∈ L) (hg : (org, k3) ∈ L) :
    Runs over l L (decodePart n (.to inp) (.to out) (.to org) p) fun ok L' =>
      L' = L ∨ ok = false ∧ p = .delta .lzma ∧ ∃ i, L' = (i, .heap) :: L := by
  unfold decodePart
  refine Runs.bind (decodeStart_runs p hu) fun r L1 h1 => ?_
  obtain ⟨ok, inner⟩ := r
  rcases h1 with ⟨h, rfl⟩ | ⟨i, h, hp, rfl⟩
  · dsimp only at h
    subst h
    cases ok with
    | false => exact Runs.pure (Or.inl rfl)
    | true =>
      dsimp only
      refine Keeps.then (by keepsLib) fun b => ?_
      cases b with
      | false => exact Runs.pure (Or.inl rfl)
      | true =>
        refine Runs.mono (R := fun _ L' => L' = L1) ?_ fun _ _ h => Or.inl h
        unfold decodeFinish
        refine Keeps.then (by keepsLib) fun b => ?_
        exact Runs.pure_bind (Keeps.steps_cons Keeps.ask (by keepsLib))
  · obtain ⟨rfl, rfl⟩ := Prod.mk.inj h
    obtain rfl : over = false := ho.elim id fun h => absurd hp h
    dsimp only
    refine Keeps.then (by keepsLib) fun b => ?_
    cases b with
    | false => exact Runs.pure (Or.inr ⟨rfl, hp, i, rfl⟩)
    | true =>
      refine Runs.mono (R := fun _ L' => L' = L) ?_ fun _ _ h => Or.inl h
      unfold decodeFinish
      refine Keeps.then (by keepsLib) fun b => ?_
      exact Runs.giveMem fits_heap_lib (by exact Keeps.steps_cons Keeps.ask (by keepsLib))

theorem decodeParts_runs {n inp out org : Nat} {k1 k2 k3 : Kind} (ps : List Coding) (ho : over = false ∨ NoLzma ps)
    (hi : (inp, k1) ∈ L) (hu : (out, k2) ∈ L) (hg : (org, k3) ∈ L) :
    Runs over l L (decodeParts n (.to inp) (.to out) (.to org) ps) fun ok L' =>
      L' = L ∨ ok = false ∧ Coding.delta .lzma ∈ ps ∧ ∃ i, L' = (i, .heap) :: L := by
  induction ps with
  | nil => exact Runs.pure (Or.inl rfl)
  | cons p ps ih =>
    refine Runs.bind (decodePart_runs p (ho.imp_right fun h => fun he => h (he ▸ List.mem_cons_self)) hi hu hg)
      fun b L1 h1 => ?_
    rcases h1 with rfl | ⟨rfl, hp, i, rfl⟩
    · cases b with
      | false => exact Runs.pure (Or.inl rfl)
      | true =>
        refine (ih (ho.imp_right fun h => fun hx => h (List.mem_cons_of_mem _ hx))).mono fun ok L' h => ?_
        exact h.imp_right fun ⟨h1, h2, h3⟩ => ⟨h1, List.mem_cons_of_mem _ h2, h3⟩
    · exact Runs.pure (Or.inr ⟨rfl, hp ▸ List.mem_cons_self, i, rfl⟩)

theorem decode_runs {n inp out org : Nat} {k1 k2 k3 : Kind} (ps : List Coding) (ho : over = false ∨ NoLzma ps)
    (hi : (inp, k1) ∈ L) (hu : (out, k2) ∈ L) (hg : (org, k3) ∈ L) :
    Runs over l L (decode n ps (.to inp) (.to out) (.to org)) fun ok L' =>
      L' = L ∨ ok = false ∧ Coding.delta .lzma ∈ ps ∧ ∃ i, L' = (i, .heap) :: L := by
  unfold decode
  refine Keeps.then Keeps.ask fun b => ?_
  cases b with
  | false => exact Runs.pure (Or.inl rfl)
  | true =>
    refine Keeps.then Keeps.ask fun b => ?_
    cases b with
    | false => exact Runs.pure (Or.inl rfl)
    | true =>
      refine Keeps.then (Keeps.io hi) fun b => ?_
      cases b with
      | false => exact Runs.pure (Or.inl rfl)
      | true =>
        refine Runs.bind (decodeParts_runs ps ho hi hu hg) fun b L1 h1 => ?_
        rcases h1 with rfl | ⟨rfl, h, hL⟩
        · cases b with
          | false => exact Runs.pure (Or.inl rfl)
          | true => exact Runs.pure (Or.inl rfl)
        · exact Runs.pure (Or.inr ⟨rfl, h, hL⟩)

/-- Encoding or decoding, as one piece. -/
theorem code_runs {n inp out org : Nat} {k1 k2 k3 : Kind} (dec : Bool) (ps : List Coding)
    (ho : over = false ∨ NoLzma ps) (hm : Enough l) (hi : (inp, k1) ∈ L) (hu : (out, k2) ∈ L) (hg : (org, k3) ∈ L) :
    Runs over l L (match dec with
      | true => decode n ps (.to inp) (.to out) (.to org)
      | false => encode n ps (.to inp) (.to out) (.to org)) fun ok L' =>
      L' = L ∨ (dec = true ∧ ok = false ∧ Coding.delta .lzma ∈ ps) ∧ ∃ i, L' = (i, .heap) :: L := by
  cases dec with
  | true => exact (decode_runs ps ho hi hu hg).mono fun ok L' h => h.imp_right fun ⟨h1, h2, h3⟩ => ⟨⟨rfl, h1, h2⟩, h3⟩
  | false => exact (encode_keeps ps ho hm hi hu hg).mono fun ok L' h => Or.inl h

theorem transportSession_runs (n : Nat) (dec : Bool) (ps : List Coding) (ho : over = false ∨ NoLzma ps)
    (hm : Enough l) : Runs over l L (transportSession n dec ps) fun _ L' =>
      L' = L ∨ (dec = true ∧ Coding.delta .lzma ∈ ps) ∧ ∃ i, L' = (i, .heap) :: L := by
  unfold transportSession
  refine pkgOpen_then (fun _ => Runs.pure (Or.inl rfl)) fun inp _ => ?_
  refine pkgOpen_then (fun _ => pkgClose_then (Runs.pure (Or.inl rfl))) fun org _ => ?_
  refine pkgOpen_then (fun _ => pkgClose_then (pkgClose_then (Runs.pure (Or.inl rfl)))) fun out _ => ?_
  dsimp only
  refine Runs.bind (code_runs dec ps ho hm (by mem) (by mem) (by mem)) fun ok L1 h1 => ?_
  rcases h1 with rfl | ⟨⟨h1, h2, h3⟩, i, rfl⟩
  · exact pkgClose_then (pkgClose_then (pkgClose_then (Runs.pure (Or.inl rfl))))
  · refine pkgClose_mid (C := [(i, .heap)]) (pkgClose_mid (C := [(i, .heap)]) (pkgClose_mid (C := [(i, .heap)]) ?_))
    exact Runs.pure (Or.inr ⟨⟨h1, h3⟩, i, rfl⟩)

/-! ## Commands -/

/-- A command keeps to the resources that it needs, but for key contexts. -/
theorem onPackage_runs {n : Nat} {work : Ptr → M Bool}
    (h : ∀ i (L : List (Nat × Kind)), (i, Kind.file) ∈ L → Runs over l L (work (.to i)) fun _ L' => Contexts L L') :
    Runs over l L (onPackage n work) fun _ L' => Contexts L L' := by
  unfold onPackage
  refine pkgOpen_then (fun _ => Runs.pure .refl) fun i _ => ?_
  dsimp only
  refine Runs.bind (h i _ List.mem_cons_self) fun ok L1 h1 => ?_
  obtain ⟨C, hC, rfl⟩ := h1
  exact pkgClose_mid (Runs.pure ⟨C, hC, rfl⟩)

theorem Keeps.contexts {α : Type} {m : M α} (h : Keeps over l L m) : Runs over l L m fun _ L' => Contexts L L' :=
  h.mono fun _ _ hL => hL ▸ .refl

theorem addMetaWork_keeps {fp : Nat} {k : Kind} (f : Bool) (h : (fp, k) ∈ L) :
    Keeps over l L (addMetaWork f (.to fp)) := by
  cases f with
  | false => unfold addMetaWork; dsimp only; keepsLib
  | true =>
    unfold addMetaWork
    refine Runs.take Keeps.pure fun i _ => ?_
    dsimp only
    refine Keeps.then (by keepsLib) fun b => Runs.give (fits_same _) ?_
    cases b with
    | false => exact Keeps.pure
    | true => dsimp only; exact (show Keeps over l L _ by keepsLib)

theorem extractWork_keeps {n fp : Nat} {k : Kind} (m p f : Bool) (h : (fp, k) ∈ L) :
    Keeps over l L (extractWork n m p f (.to fp)) := by
  unfold extractWork
  cases m with
  | false =>
    cases p with
    | false => cases f <;> exact Keeps.pure
    | true => cases f <;> exact extractFile_keeps h
  | true =>
    cases f with
    | false =>
      refine Keeps.then (by keepsLib) fun b => ?_
      cases b with
      | false => cases p <;> exact Keeps.pure
      | true =>
        cases p with
        | false => exact Keeps.pure
        | true => exact extractFile_keeps h
    | true =>
      refine Runs.ask fun b => ?_
      cases b with
      | false => exact Keeps.pure
      | true =>
        refine Runs.take Keeps.pure fun o _ => ?_
        dsimp only
        refine Keeps.then (by keepsLib) fun b => ?_
        cases b with
        | false => cases p <;> exact Runs.give (fits_same _) Keeps.pure
        | true =>
          cases p with
          | false => exact Runs.give (fits_same _) Keeps.pure
          | true =>
            dsimp only
            refine Keeps.then (extractFile_keeps (List.mem_cons_of_mem _ h)) fun b => ?_
            exact Runs.give (fits_same _) Keeps.pure

theorem signFileWork_keeps {fp : Nat} {k : Kind} (h : (fp, k) ∈ L) : Keeps over l L (signFileWork (.to fp)) := by
  unfold signFileWork
  refine Runs.take Keeps.pure fun i _ => ?_
  exact Runs.use List.mem_cons_self (Runs.give (fits_same _) (rawSignature_keeps h))

/-- Growing an entry: the header is in the old block, or in a new one. -/
theorem setGrow_runs {h f : Nat} (hm : Enough l) : Runs over l ((f, .file) :: (h, .heap) :: L) (setGrow (.to h)) fun r L' =>
    (∃ b, r = (b, .to h) ∧ L' = (f, .file) :: (h, .heap) :: L) ∨
      ∃ t, r = (true, .to t) ∧ L' = (t, .heap) :: (f, .file) :: L := by
  unfold setGrow
  refine Runs.use (k := .heap) (by mem) (Runs.ask fun b => ?_)
  cases b with
  | false => exact Runs.use (k := .heap) (by mem) (Runs.pure (Or.inl ⟨true, rfl, rfl⟩))
  | true =>
    refine Runs.alloc (Or.inl hm) fun t _ => ?_
    refine Runs.use List.mem_cons_self (Runs.use (k := .heap) (by mem) (Runs.ask fun b => ?_))
    cases b with
    | false => exact Runs.giveMem (fits_same _) (Runs.pure (Or.inl ⟨false, rfl, rfl⟩))
    | true =>
      refine Runs.give_mid (f := fun _ => (do use (.to t); Pure.pure (true, Ptr.to t) : M (Bool × Ptr)))
        (C := [(t, .heap), (f, .file)]) (was := .heap) (fits_same _) ?_
      exact Runs.use List.mem_cons_self (Runs.pure (Or.inr ⟨t, rfl, rfl⟩))

theorem cmdSet_keeps (e : Bool) (hm : Enough l) : Keeps over l L (cmdSet e) := by
  unfold cmdSet
  refine Runs.alloc (Or.inl hm) fun h _ => ?_
  refine Runs.take (Runs.giveMem (fits_same _) Keeps.pure) fun f _ => ?_
  dsimp only
  refine Keeps.then (by keepsLib) fun b => ?_
  cases b with
  | false => exact Runs.give (fits_same _) (Runs.giveMem (fits_same _) Keeps.pure)
  | true =>
    dsimp only
    have hr : Runs over l ((f, .file) :: (h, .heap) :: L) (match e with
        | true => (do use (.to h); let ok ← ask; Pure.pure (ok, Ptr.to h) : M (Bool × Ptr))
        | false => setGrow (.to h)) fun r L' =>
        (∃ b, r = (b, .to h) ∧ L' = (f, .file) :: (h, .heap) :: L) ∨
          ∃ t, r = (true, .to t) ∧ L' = (t, .heap) :: (f, .file) :: L := by
      cases e with
      | true => exact Runs.use (k := .heap) (by mem) (Runs.ask fun b => Runs.pure (Or.inl ⟨b, rfl, rfl⟩))
      | false => exact setGrow_runs hm
    refine Runs.bind hr fun r L1 h1 => ?_
    rcases h1 with ⟨b, rfl, rfl⟩ | ⟨t, rfl, rfl⟩
    · cases b with
      | false => exact Runs.give (fits_same _) (Runs.giveMem (fits_same _) Keeps.pure)
      | true =>
        dsimp only
        refine Keeps.then (by keepsLib) fun b => ?_
        exact Runs.give (fits_same _) (Runs.giveMem (fits_same _) Keeps.pure)
    · dsimp only
      refine Keeps.then (by keepsLib) fun b => ?_
      exact Runs.give_second (fits_same _) (Runs.giveMem (fits_same _) Keeps.pure)

theorem cmdCompare_keeps : Keeps over l L cmdCompare := by
  unfold cmdCompare
  refine Runs.take Keeps.pure fun i _ => ?_
  refine Runs.take (Runs.give (fits_same _) Keeps.pure) fun j _ => ?_
  dsimp only
  refine Keeps.then (by keepsLib) fun b => ?_
  exact Runs.give (fits_same _) (Runs.give (fits_same _) Keeps.pure)

theorem keystoreKey_keeps {fp : Nat} {k : Kind} (h : (fp, k) ∈ L) : Keeps false l L (keystoreKey (.to fp)) := by
  unfold keystoreKey
  refine Keeps.then (by keepsLib) fun b => ?_
  cases b with
  | false => exact Keeps.pure
  | true =>
    dsimp only
    refine Runs.bind parsePublicKey_runs fun r L' hr => ?_
    rcases hr with ⟨rfl, rfl⟩ | ⟨i, rfl, hi, rfl⟩
    · exact Keeps.pure
    · dsimp only
      refine Runs.use List.mem_cons_self (Runs.ask fun b => ?_)
      cases b with
      | false => exact Runs.giveMem fits_lib_heap Keeps.pure
      | true => exact Runs.use List.mem_cons_self (Runs.giveMem fits_lib_heap Keeps.pure)

theorem cmdKeystore_keeps (n m : Nat) (hm : Enough l) : Keeps false l L (cmdKeystore n m) := by
  unfold cmdKeystore
  refine Runs.alloc (Or.inl hm) fun h _ => ?_
  dsimp only
  refine Runs.take (Runs.giveMem (fits_same _) Keeps.pure) fun f _ => ?_
  dsimp only
  refine Keeps.then (by keepsLib) fun b => ?_
  cases b with
  | false => exact Runs.give (fits_same _) (Runs.giveMem (fits_same _) Keeps.pure)
  | true =>
    dsimp only
    refine Runs.alloc (Or.inl hm) fun nm _ => ?_
    refine Keeps.then (by keepsLib) fun _ => ?_
    refine Keeps.then (Keeps.rounds ?_ _) fun b => ?_
    · refine Keeps.useThen (k := .heap) (by mem) (Keeps.useThen (k := .heap) (by mem) ?_)
      exact keystoreKey_keeps (k := .file) (by mem)
    exact Runs.giveMem (fits_same _) (Runs.give (fits_same _) (Runs.giveMem (fits_same _) Keeps.pure))

theorem cmd_runs (c : Cmd) (hm : Enough l) : Runs false l L c.run fun _ L' => Contexts L L' := by
  cases c with
  | create n => exact onPackage_runs fun i L h => Keeps.contexts (by keepsLib)
  | addMeta f => exact onPackage_runs fun i L h => Keeps.contexts (addMetaWork_keeps f h)
  | addPart n => exact onPackage_runs fun i L h => Keeps.contexts (addFile_keeps h)
  | addKey n => exact onPackage_runs fun i L h => addKey_runs hm h
  | addTree n => exact onPackage_runs fun i L h => Keeps.contexts (addFileTree_keeps hm h)
  | delete n all =>
    cases all with
    | false => exact onPackage_runs fun i L h => Keeps.contexts (deletePart_keeps h)
    | true => exact onPackage_runs fun i L h => Keeps.contexts (deleteAll_keeps h)
  | extract n m p f => exact onPackage_runs fun i L h => Keeps.contexts (extractWork_keeps m p f h)
  | set e => exact Keeps.contexts (cmdSet_keeps e hm)
  | «show» n =>
    exact onPackage_runs fun i L h => Keeps.contexts
      (Keeps.steps_cons Keeps.ask (Keeps.steps_cons (partHash_keeps h) (by keepsLib)))
  | sign n => exact onPackage_runs fun i L h => Keeps.contexts (pkgSign_keeps h)
  | signFile => exact onPackage_runs fun i L h => Keeps.contexts (signFileWork_keeps h)
  | verifyKey n => exact onPackage_runs fun i L h => call_runs (.verify n) hm (Or.inl rfl) h
  | verifyKeystore n => exact onPackage_runs fun i L h => call_runs (.verifyKeystore n) hm (Or.inl rfl) h
  | compare => exact Keeps.contexts cmdCompare_keeps
  | keystore n m => exact Keeps.contexts (cmdKeystore_keeps n m hm)
  | transportAdd => exact onPackage_runs fun i L h => Keeps.contexts (by keepsLib)

theorem cmdTransport_runs (n : Nat) (dec : Bool) (ps : List Coding) (hm : Enough l) :
    Runs false l L (cmdTransport n dec ps) fun _ L' => ∃ C, (∀ x ∈ C, x.2 = .heap) ∧
      (L' = C ++ L ∨ ∃ i, L' = C ++ (i, .file) :: L) := by
  unfold cmdTransport
  refine pkgOpen_then (fun _ => Runs.pure ⟨[], by simp, Or.inl rfl⟩) fun inp _ => ?_
  refine pkgOpen_then (fun _ => Runs.pure ⟨[], by simp, Or.inr ⟨inp, rfl⟩⟩) fun org _ => ?_
  refine pkgOpen_then (fun _ => pkgClose_mid (C := [(org, .file)])
    (pkgClose_then (Runs.pure ⟨[], by simp, Or.inl rfl⟩))) fun out _ => ?_
  dsimp only
  refine Runs.bind (code_runs dec ps (Or.inl rfl) hm (by mem) (by mem) (by mem)) fun ok L1 h1 => ?_
  rcases h1 with rfl | ⟨_, i, rfl⟩
  · exact pkgClose_mid (C := [(out, .file), (org, .file)]) (pkgClose_mid (C := [(out, .file)])
      (Runs.pure ⟨[], by simp, Or.inr ⟨out, rfl⟩⟩))
  · refine pkgClose_mid (C := [(i, .heap), (out, .file), (org, .file)]) (pkgClose_mid (C := [(i, .heap), (out, .file)]) ?_)
    exact Runs.pure ⟨[(i, .heap)], by simp, Or.inr ⟨out, rfl⟩⟩

end Bpak.Res
