import Verif.Proof.Main
/-! Which files a command line can change. -/
namespace Bpak

theorem cluster_suffix (t : OptTable) (next : Option Bytes) : ∀ (bs : Bytes) (c : Char) (a : Bytes), OptEv.opt c a ∈ (cluster t next bs).1 → a <:+ bs ∨ next = some a := by
  intro bs
  induction bs with
  | nil => intro c a h; cases h
  | cons b bs ih =>
    intro c a h
    have up : a <:+ bs ∨ next = some a → a <:+ b :: bs ∨ next = some a := by
      rintro (h | h)
      · exact .inl (h.trans (List.suffix_cons ..))
      · exact .inr h
    unfold cluster at h
    split at h
    · simp only [List.mem_cons, reduceCtorEq, false_or] at h; exact up (ih c a h)
    · simp only [List.mem_cons] at h
      rcases h with h | h
      · injection h with h1 h2; subst h2; exact .inl (List.nil_suffix)
      · exact up (ih c a h)
    · split at h
      · simp only [List.mem_singleton] at h; injection h with h1 h2; subst h2; exact .inl (List.suffix_cons ..)
      · split at h
        · simp only [List.mem_singleton] at h; injection h with h1 h2; subst h2; exact .inr rfl
        · simp only [List.mem_singleton, reduceCtorEq] at h

theorem longOpt_suffix (t : OptTable) (next : Option Bytes) (body : Bytes) (c : Char) (a : Bytes) (h : (longOpt t next body).1 = .opt c a) : a <:+ body ∨ next = some a := by
  unfold longOpt at h
  simp only at h
  split at h
  · cases h
  · split at h
    · injection h with h1 h2; subst h2; exact .inl (List.nil_suffix)
    · cases h
  · split at h
    · injection h with h1 h2; subst h2; exact .inl (List.drop_suffix ..)
    · split at h
      · injection h with h1 h2; subst h2; exact .inr rfl
      · cases h

/-- What `getopt_long` hands out are ends of the arguments, or whole ones. -/
theorem getopt_suffix (t : OptTable) : ∀ (args : List Bytes) (skip : Bool),
    (∀ c a, OptEv.opt c a ∈ (getoptGo t skip args).1 → ∃ x ∈ args, a <:+ x) ∧ (∀ a, a ∈ (getoptGo t skip args).2 → a ∈ args) := by
  intro args
  induction args with
  | nil =>
    intro skip
    constructor
    · intro c a h; cases skip <;> cases h
    · intro a h; cases skip <;> cases h
  | cons x rest ih =>
    intro skip
    have up1 : ∀ s c a, OptEv.opt c a ∈ (getoptGo t s rest).1 → ∃ y ∈ x :: rest, a <:+ y := by
      intro s c a h
      obtain ⟨y, hy, hs⟩ := (ih s).1 c a h
      exact ⟨y, List.mem_cons_of_mem _ hy, hs⟩
    have up2 : ∀ s a, a ∈ (getoptGo t s rest).2 → a ∈ x :: rest := fun s a h => List.mem_cons_of_mem _ ((ih s).2 a h)
    have hd : ∀ a, rest.head? = some a → ∃ y ∈ x :: rest, a <:+ y := by
      intro a h
      exact ⟨a, List.mem_cons_of_mem _ (List.mem_of_mem_head? (by rw [h]; rfl)), List.suffix_refl _⟩
    cases skip with
    | true => exact ⟨fun c a h => up1 false c a h, fun a h => up2 false a h⟩
    | false =>
      unfold getoptGo
      split
      · exact ⟨fun c a h => (by cases h), fun a h => List.mem_cons_of_mem _ h⟩
      · split
        · refine ⟨?_, fun a h => up2 _ a h⟩
          intro c a h
          simp only [List.mem_cons] at h
          rcases h with h | h
          · rcases longOpt_suffix _ _ _ _ _ h.symm with h | h
            · exact ⟨x, List.mem_cons_self .., h.trans (List.drop_suffix ..)⟩
            · exact hd a h
          · exact up1 _ c a h
        · split
          · refine ⟨?_, fun a h => up2 _ a h⟩
            intro c a h
            simp only [List.mem_append] at h
            rcases h with h | h
            · rcases cluster_suffix _ _ _ _ _ h with h | h
              · exact ⟨x, List.mem_cons_self .., h.trans (List.drop_suffix ..)⟩
              · exact hd a h
            · exact up1 _ c a h
          · refine ⟨fun c a h => up1 _ c a h, ?_⟩
            intro a h
            simp only [List.mem_cons] at h
            rcases h with h | h
            · rw [h]; exact List.mem_cons_self ..
            · exact up2 _ a h

/-- A setting comes from the start or is the argument of an option. -/
theorem lastArg_mem (k : Char) (evs : List OptEv) (a : Bytes) (h : lastArg k evs = some a) : OptEv.opt k a ∈ evs := by
  have key : ∀ (evs : List OptEv) (x : Option Bytes), evs.foldl (fun x e => match e with | .opt d a => if d = k then some a else x | .bad => x) x = some a →
      x = some a ∨ OptEv.opt k a ∈ evs := by
    intro evs
    induction evs with
    | nil => intro x h; exact .inl h
    | cons e es ih =>
      intro x h
      rw [List.foldl_cons] at h
      rcases ih _ h with h | h
      · cases e with
        | bad => exact .inl h
        | opt d b =>
          simp only at h
          split at h
          · rename_i hd; cases h; subst hd; exact .inr (List.mem_cons_self ..)
          · exact .inl h
      · exact .inr (List.mem_cons_of_mem _ h)
  rcases key evs none h with h | h
  · cases h
  · exact h

variable [LzmaLib]

/-- The worlds differ only at the paths in `S`. -/
def Within (S : Bytes → Prop) (w w' : World) : Prop := ∀ p, ¬ S p → w' p = w p

theorem Within.refl (S : Bytes → Prop) (w : World) : Within S w w := fun _ _ => rfl

theorem Within.put {S : Bytes → Prop} {w w' : World} (h : Within S w w') {path : Bytes} (hp : S path) (x : Option Bytes) : Within S w (w'.put path x) := by
  intro p hn
  unfold World.put
  rw [if_neg (show ¬ p = path from fun e => hn (by rw [e]; exact hp))]
  exact h p hn

theorem inPlace_within {w0 w : World} {S : Bytes → Prop} {path : Bytes} (hw : Within S w0 w) (hp : S path) {x : Option (Out (Err × Bytes))} {rc : Err} {out : Printed} {w' : World}
    (h : inPlace w path x = .exit rc out w') : Within S w0 w' := by
  unfold inPlace at h
  split at h
  · cases h
  · cases h
  · obtain ⟨-, -, h3⟩ := Ran.exit.inj h
    rw [← h3]
    exact hw.put hp _

theorem withFile_exit {σ : Type} {t : OptTable} {step : Char → Bytes → σ → Option σ} {init : σ} {w : World} {args : List Bytes} {k : σ → Bytes → Ran} {rc : Err} {out : Printed} {w' : World}
    (h : withFile t step init w args k = .exit rc out w') :
    (rc = .ok ∧ out = .usage ∧ w' = w ∧ HelpFirst (getopt t args).1) ∨ (rc = .failed ∧ out = .nothing ∧ w' = w) ∨
    ∃ o path, optLoop step (getopt t args).1 init = .ok o ∧ (getopt t args).2.head? = some path ∧ k o path = .exit rc out w' := by
  unfold withFile withOpts at h
  split at h
  · rename_i e he
    obtain ⟨h1, h2, h3⟩ := Ran.exit.inj h
    rcases optLoop_error _ _ _ _ he with h0 | h0
    · subst h0; exact .inl ⟨h1.symm, by rw [← h2]; rfl, h3.symm, optLoop_helpFirst _ _ _ he⟩
    · subst h0; exact .inr (.inl ⟨h1.symm, by rw [← h2]; rfl, h3.symm⟩)
  · rename_i o ho
    simp only at h
    split at h
    · obtain ⟨h1, h2, h3⟩ := Ran.exit.inj h
      exact .inr (.inl ⟨h1.symm, h2.symm, h3.symm⟩)
    · rename_i path rest hops
      exact .inr (.inr ⟨o, path, ho, by rw [hops]; rfl, h⟩)

theorem withFile_within {σ : Type} {t : OptTable} {step : Char → Bytes → σ → Option σ} {init : σ} {w : World} {args : List Bytes} {k : σ → Bytes → Ran} {rc : Err} {out : Printed} {w' : World}
    {S : Bytes → Prop} (hk : ∀ o path, optLoop step (getopt t args).1 init = .ok o → (getopt t args).2.head? = some path → k o path = .exit rc out w' → Within S w w')
    (h : withFile t step init w args k = .exit rc out w') : Within S w w' := by
  rcases withFile_exit h with ⟨-, -, e, -⟩ | ⟨-, -, e⟩ | ⟨o, path, h1, h2, h3⟩
  · rw [e]; exact .refl _ _
  · rw [e]; exact .refl _ _
  · exact hk o path h1 h2 h3

theorem createLine_within {env : Env} {w : World} {o : CreateOpts} {path : Bytes} {rc : Err} {out : Printed} {w' : World} {S : Bytes → Prop} (hp : S path)
    (h : createLine env w o path = .exit rc out w') : Within S w w' := by
  unfold createLine at h
  obtain ⟨-, -, h3⟩ := Ran.exit.inj h
  rw [← h3]; exact (Within.refl S w).put hp _

theorem addLine_within {env : Env} {w : World} {o : AddLine} {path : Bytes} {rc : Err} {out : Printed} {w' : World} {S : Bytes → Prop} (hp : S path)
    (h : addLine env w o path = .exit rc out w') : Within S w w' := by
  have same : ∀ {e x}, Ran.exit e x w = .exit rc out w' → Within S w w' := by
    intro e x h; obtain ⟨-, -, h3⟩ := Ran.exit.inj h; rw [← h3]; exact .refl _ _
  have put : ∀ {e x y}, Ran.exit e x (w.put path y) = .exit rc out w' → Within S w w' := by
    intro e x y h; obtain ⟨-, -, h3⟩ := Ran.exit.inj h; rw [← h3]; exact (Within.refl S w).put hp _
  unfold addLine at h
  split at h
  · exact same h
  · split at h
    · exact same h
    · split at h
      · exact same h
      · split at h
        · exact inPlace_within (.refl S w) hp h
        · unfold addPartLine at h
          simp only at h
          split at h
          · exact inPlace_within (.refl S w) hp h
          · split at h
            · cases h
            · split at h
              · exact inPlace_within (.refl S w) hp h
              · split at h
                · exact inPlace_within (.refl S w) hp h
                · split at h
                  · exact put h
                  · split at h
                    · exact inPlace_within (.refl S w) hp h
                    · exact put h

theorem setLine_within {w : World} {o : SetOpts} {path : Bytes} {rc : Err} {out : Printed} {w' : World} {S : Bytes → Prop} (hp : S path)
    (h : setLine w o path = .exit rc out w') : Within S w w' := by
  have same : ∀ {e x}, Ran.exit e x w = .exit rc out w' → Within S w w' := by
    intro e x h; obtain ⟨-, -, h3⟩ := Ran.exit.inj h; rw [← h3]; exact .refl _ _
  unfold setLine at h
  split at h
  · exact inPlace_within (.refl S w) hp h
  · split at h
    · exact same h
    · split at h
      · exact same h
      · exact same h

theorem deleteLine_within {env : Env} {w : World} {o : DeleteOpts} {path : Bytes} {rc : Err} {out : Printed} {w' : World} {S : Bytes → Prop} (hp : S path)
    (h : deleteLine env w o path = .exit rc out w') : Within S w w' := by
  unfold deleteLine at h
  split at h
  · exact inPlace_within (.refl S w) hp h
  · obtain ⟨-, -, h3⟩ := Ran.exit.inj h; rw [← h3]; exact .refl _ _

theorem signLine_within {env : Env} {w : World} {o : SignOpts} {path : Bytes} {rc : Err} {out : Printed} {w' : World} {S : Bytes → Prop} (hp : S path)
    (h : signLine env w o path = .exit rc out w') : Within S w w' := by
  have same : ∀ {e x}, Ran.exit e x w = .exit rc out w' → Within S w w' := by
    intro e x h; obtain ⟨-, -, h3⟩ := Ran.exit.inj h; rw [← h3]; exact .refl _ _
  have put : ∀ {e x y}, Ran.exit e x (w.put path y) = .exit rc out w' → Within S w w' := by
    intro e x y h; obtain ⟨-, -, h3⟩ := Ran.exit.inj h; rw [← h3]; exact (Within.refl S w).put hp _
  unfold signLine at h
  split at h
  · exact same h
  · simp only at h
    split at h
    · exact put h
    · split at h
      · split at h
        · exact put h
        · exact inPlace_within (.refl S w) hp h
      · split at h
        · cases h
        · exact inPlace_within (.refl S w) hp h

theorem verifyLine_within {env : Env} {w : World} {o : VerifyOpts} {path : Bytes} {rc : Err} {out : Printed} {w' : World} {S : Bytes → Prop} (hp : S path)
    (h : verifyLine env w o path = .exit rc out w') : Within S w w' := by
  have same : ∀ {e x}, Ran.exit e x w = .exit rc out w' → Within S w w' := by
    intro e x h; obtain ⟨-, -, h3⟩ := Ran.exit.inj h; rw [← h3]; exact .refl _ _
  have put : ∀ {e x y}, Ran.exit e x (w.put path y) = .exit rc out w' → Within S w w' := by
    intro e x y h; obtain ⟨-, -, h3⟩ := Ran.exit.inj h; rw [← h3]; exact (Within.refl S w).put hp _
  unfold verifyLine at h
  split at h
  · exact same h
  · simp only at h
    split at h
    · exact put h
    · split at h
      · exact put h
      · split at h
        · cases h
        · exact put h

theorem showLine_within {env : Env} {w : World} {o : ShowOpts} {path : Bytes} {rc : Err} {out : Printed} {w' : World}
    (h : showLine env w o path = .exit rc out w') : w' = w := by
  unfold showLine at h
  split at h
  · exact (Ran.exit.inj h).2.2.symm
  · split at h
    · cases h
    · exact (Ran.exit.inj h).2.2.symm

theorem extractLine_within {env : Env} {w : World} {o : ExtractOpts} {path : Bytes} {rc : Err} {out : Printed} {w' : World} {S : Bytes → Prop} (hp : S path)
    (ho : ∀ x, o.output = some x → S x) (h : extractLine env w o path = .exit rc out w') : Within S w w' := by
  have same : ∀ {e x}, Ran.exit e x w = .exit rc out w' → Within S w w' := by
    intro e x h; obtain ⟨-, -, h3⟩ := Ran.exit.inj h; rw [← h3]; exact .refl _ _
  have put : ∀ {e x y}, Ran.exit e x (w.put path y) = .exit rc out w' → Within S w w' := by
    intro e x y h; obtain ⟨-, -, h3⟩ := Ran.exit.inj h; rw [← h3]; exact (Within.refl S w).put hp _
  unfold extractLine at h
  split at h
  · exact same h
  · split at h
    · exact same h
    · simp only at h
      split at h
      · cases h
      · split at h
        · cases h
        · exact put h
        · split at h
          · exact put h
          · rename_i x hx
            obtain ⟨-, -, h3⟩ := Ran.exit.inj h; rw [← h3]
            exact ((Within.refl S w).put hp _).put (ho x hx) _

theorem toOutput_within {env : Env} {w0 w : World} {x : Bytes} {d : Drv Bytes} {rc : Err} {out : Printed} {w' : World} {S : Bytes → Prop} (hw : Within S w0 w) (hx : S x)
    (h : toOutput env w x d = .exit rc out w') : Within S w0 w' := by
  unfold toOutput at h
  split at h
  · obtain ⟨-, -, h3⟩ := Ran.exit.inj h; rw [← h3]; exact hw.put hx _
  · obtain ⟨-, -, h3⟩ := Ran.exit.inj h; rw [← h3]; exact hw.put hx _
  · cases h
  · cases h

theorem transportLine_within {env : Env} {w : World} {o : TransportOpts} {path : Bytes} {rc : Err} {out : Printed} {w' : World} {S : Bytes → Prop} (hp : S path)
    (ho : ∀ x, o.output = some x → S x) (hg : ∀ x, o.origin = some x → S x) (h : transportLine env w o path = .exit rc out w') : Within S w w' := by
  have run : ∀ {v f org}, Within S w v → transportRun env v path f org o = .exit rc out w' → Within S w w' := by
    intro v f org hv h
    have same : ∀ {e x}, Ran.exit e x v = .exit rc out w' → Within S w w' := by
      intro e x h; obtain ⟨-, -, h3⟩ := Ran.exit.inj h; rw [← h3]; exact hv
    unfold transportRun at h
    split at h
    · split at h
      · exact same h
      · rename_i x hx
        split at h
        · cases h
        · split at h
          · exact toOutput_within hv (ho x hx) h
          · exact toOutput_within hv (ho x hx) h
    · split at h
      · exact inPlace_within hv hp h
      · exact same h
  have same : ∀ {e x}, Ran.exit e x w = .exit rc out w' → Within S w w' := by
    intro e x h; obtain ⟨-, -, h3⟩ := Ran.exit.inj h; rw [← h3]; exact .refl _ _
  have put : ∀ {e x y}, Ran.exit e x (w.put path y) = .exit rc out w' → Within S w w' := by
    intro e x y h; obtain ⟨-, -, h3⟩ := Ran.exit.inj h; rw [← h3]; exact (Within.refl S w).put hp _
  unfold transportLine at h
  split at h
  · exact same h
  · split at h
    · exact same h
    · simp only at h
      split at h
      · exact put h
      · split at h
        · exact run ((Within.refl S w).put hp _) h
        · rename_i g hgo
          split at h
          · exact put h
          · have h2 : ∀ y z, Within S w ((w.put path y).put g z) := fun y z => ((Within.refl S w).put hp _).put (hg g hgo) _
            split at h
            · obtain ⟨-, -, h3⟩ := Ran.exit.inj h; rw [← h3]; exact h2 _ _
            · exact run (h2 _ _) h

end Bpak
