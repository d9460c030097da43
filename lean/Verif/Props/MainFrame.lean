import Verif.Proof.MainFrame
/-! C109: which files a run of the tool can change. -/
namespace Bpak
variable [LzmaLib]

theorem extractStep_output : ∀ c a (s s' : ExtractOpts), extractStep c a s = some s' → s'.output = if c = 'o' then some a else s.output := by
  intro c a s s' h
  unfold extractStep at h
  split at h <;> first | (cases h; rfl) | cases h

theorem transportStep_output : ∀ c a (s s' : TransportOpts), transportStep c a s = some s' → s'.output = if c = 'o' then some a else s.output := by
  intro c a s s' h
  unfold transportStep at h
  split at h <;> first | (cases h; rfl) | cases h

theorem transportStep_origin : ∀ c a (s s' : TransportOpts), transportStep c a s = some s' → s'.origin = if c = 'O' then some a else s.origin := by
  intro c a s s' h
  unfold transportStep at h
  split at h <;> first | (cases h; rfl) | cases h

theorem compare_same {w : World} {args : List Bytes} {rc : Err} {out : Printed} {w' : World} (h : actionCompare w args = .exit rc out w') : w' = w := by
  rcases withOpts_exit h with ⟨-, -, e, -⟩ | ⟨-, -, e⟩ | ⟨o, -, h⟩
  · exact e
  · exact e
  · split at h
    · split at h
      · split at h
        · cases h
        · exact (Ran.exit.inj h).2.2.symm
      · exact (Ran.exit.inj h).2.2.symm
    · exact (Ran.exit.inj h).2.2.symm

theorem generate_same {env : Env} {w : World} {args : List Bytes} {rc : Err} {out : Printed} {w' : World} (h : actionGenerate env w args = .exit rc out w') : w' = w := by
  rcases withOpts_exit h with ⟨-, -, e, -⟩ | ⟨-, -, e⟩ | ⟨o, -, h⟩
  · exact e
  · exact e
  · split at h
    · exact (Ran.exit.inj h).2.2.symm
    · split at h
      · split at h
        · exact (Ran.exit.inj h).2.2.symm
        · exact (Ran.exit.inj h).2.2.symm
      · split at h
        · split at h
          · exact (Ran.exit.inj h).2.2.symm
          · split at h
            · cases h
            · exact (Ran.exit.inj h).2.2.symm
        · exact (Ran.exit.inj h).2.2.symm

theorem dispatch_within (env : Env) (w : World) (action : Bytes) (args : List Bytes) (rc : Err) (out : Printed) (w' : World) (h : dispatch env w action args = .exit rc out w') :
    w' = w ∨ ∃ s ∈ actions, action = ascii s ∧ Within (Writes s args) w w' := by
  unfold dispatch at h
  have one : ∀ s : String, s ∉ ["show", "compare", "generate"] → ∀ path, (getopt (tableOf s) args).2.head? = some path → Writes s args path := fun s hs path hp => .inl ⟨hs, hp⟩
  split at h
  · rename_i e
    exact .inr ⟨"create", by decide, e, withFile_within (fun o path _ hp hk => createLine_within (one "create" (by decide) path hp) hk) h⟩
  split at h
  · rename_i e
    exact .inr ⟨"add", by decide, e, withFile_within (fun o path _ hp hk => addLine_within (one "add" (by decide) path hp) hk) h⟩
  split at h
  · refine .inl ?_
    rcases withFile_exit h with ⟨-, -, e, -⟩ | ⟨-, -, e⟩ | ⟨o, path, -, -, h⟩
    · exact e
    · exact e
    · exact showLine_within h
  split at h
  · rename_i e
    exact .inr ⟨"sign", by decide, e, withFile_within (fun o path _ hp hk => signLine_within (one "sign" (by decide) path hp) hk) h⟩
  split at h
  · rename_i e
    exact .inr ⟨"verify", by decide, e, withFile_within (fun o path _ hp hk => verifyLine_within (one "verify" (by decide) path hp) hk) h⟩
  split at h
  · exact .inl (generate_same h)
  split at h
  · rename_i e
    refine .inr ⟨"transport", by decide, e, withFile_within (fun o path ho hp hk => transportLine_within (one "transport" (by decide) path hp) ?_ ?_ hk) h⟩
    · intro x hx
      have l := optLoop_last transportStep TransportOpts.output 'o' (by decide) transportStep_output _ _ _ ho
      exact .inr (.inl ⟨by decide, by rw [← hx, l]; rfl⟩)
    · intro x hx
      have l := optLoop_last transportStep TransportOpts.origin 'O' (by decide) transportStep_origin _ _ _ ho
      exact .inr (.inr ⟨rfl, by rw [← hx, l]; rfl⟩)
  split at h
  · rename_i e
    exact .inr ⟨"set", by decide, e, withFile_within (fun o path _ hp hk => setLine_within (one "set" (by decide) path hp) hk) h⟩
  split at h
  · exact .inl (compare_same h)
  split at h
  · rename_i e
    refine .inr ⟨"extract", by decide, e, withFile_within (fun o path ho hp hk => extractLine_within (one "extract" (by decide) path hp) ?_ hk) h⟩
    intro x hx
    have l := optLoop_last extractStep ExtractOpts.output 'o' (by decide) extractStep_output _ _ _ ho
    exact .inr (.inl ⟨by decide, by rw [← hx, l]; rfl⟩)
  split at h
  · rename_i e
    exact .inr ⟨"delete", by decide, e, withFile_within (fun o path _ hp hk => deleteLine_within (one "delete" (by decide) path hp) hk) h⟩
  · exact .inl (Ran.exit.inj h).2.2.symm

/-- C109: a run changes only files that its action may change, whatever the files contain and however it ends. -/
theorem C109_frame (env : Env) (w : World) (action : String) (ha : action ∈ actions) (args : List Bytes) (rc : Err) (out : Printed) (w' : World)
    (h : bpakMain env w (ascii action :: args) = .exit rc out w') (p : Bytes) (hp : ¬ Writes action args p) : w' p = w p := by
  rw [main_action _ _ _ _ (by
    simp only [actions, List.mem_cons, List.not_mem_nil, or_false] at ha
    rcases ha with h | h | h | h | h | h | h | h | h | h | h <;> subst h <;> decide)] at h
  rcases dispatch_within env w _ args rc out w' h with hw | ⟨s, hs, e, hw⟩
  · rw [hw]
  · have : s = action := by
      simp only [actions, List.mem_cons, List.not_mem_nil, or_false] at ha hs
      rcases ha with h | h | h | h | h | h | h | h | h | h | h <;> subst h <;>
        (rcases hs with h | h | h | h | h | h | h | h | h | h | h <;> subst h <;> first | rfl | (exfalso; revert e; decide))
    subst this
    exact hw p hp

/-- C109, any command line at all: a file whose path is not written at the end of any argument stays as it is, and is not created. -/
theorem C109_unnamed (env : Env) (w : World) (argv : List Bytes) (rc : Err) (out : Printed) (w' : World) (h : bpakMain env w argv = .exit rc out w') (p : Bytes)
    (hp : ∀ a ∈ argv, ¬ p <:+ a) : w' p = w p := by
  have disp : ∀ a args, (∀ x ∈ args, x ∈ argv) → dispatch env w a args = .exit rc out w' → w' p = w p := by
    intro a args hsub h
    rcases dispatch_within env w _ args rc out w' h with h | ⟨s, hs, e, h⟩
    · rw [h]
    · apply h
      have opt : ∀ c (a : Bytes), lastArg c (getopt (tableOf s) args).1 = some a → a ≠ p := by
        intro c a ha hap
        obtain ⟨x, hx, hxs⟩ := (getopt_suffix (tableOf s) args false).1 c a (lastArg_mem _ _ _ ha)
        exact hp x (hsub x hx) (hap ▸ hxs)
      rintro (⟨-, h1⟩ | ⟨-, h1⟩ | ⟨-, h1⟩)
      · have : p ∈ (getopt (tableOf s) args).2 := List.mem_of_mem_head? (by rw [h1]; rfl)
        exact hp p (hsub p ((getopt_suffix (tableOf s) args false).2 p this)) (List.suffix_refl _)
      · exact opt _ _ h1 rfl
      · exact opt _ _ h1 rfl
  unfold bpakMain at h
  split at h
  · rw [← (Ran.exit.inj h).2.2]
  · rename_i a rest
    split at h
    · rw [← (Ran.exit.inj h).2.2]
    · rw [← (Ran.exit.inj h).2.2]
    · exact disp a rest (fun x hx => List.mem_cons_of_mem _ hx) h
    · split at h
      · rw [← (Ran.exit.inj h).2.2]
      · rename_i b more
        exact disp b _ (fun x hx => List.mem_cons_of_mem _ hx) h

theorem optLoop_bad {σ : Type} (step : Char → Bytes → σ → Option σ) : ∀ (evs : List OptEv) (s : σ), OptEv.bad ∈ evs → ¬ HelpFirst evs → optLoop step evs s = .error .failed := by
  intro evs s hb hh
  rcases h : optLoop step evs s with e | o
  · rcases optLoop_error _ _ _ _ h with h0 | h0
    · subst h0; exact absurd (optLoop_helpFirst _ _ _ h) hh
    · rw [h0]
  · exact absurd hb (optLoop_clean _ _ _ _ h).1

/-- C109, refused lines: a word that is no action, and an option that the action does not know, that has no argument although it needs one, or the other way round (and no `-h` before it), make the tool exit with status 255;
nothing is printed on the standard output and no file changes. -/
theorem C109_refused (env : Env) (w : World) (args : List Bytes) :
    (∀ word : Bytes, word.take 1 ≠ [45] → word ∉ actions.map ascii → bpakMain env w (word :: args) = .exit .failed .nothing w) ∧
    (∀ action ∈ actions, OptEv.bad ∈ (getopt (tableOf action) args).1 → ¬ HelpFirst (getopt (tableOf action) args).1 →
      bpakMain env w (ascii action :: args) = .exit .failed .nothing w) ∧
    (Ran.exit .failed .nothing w).status = some 255 := by
  refine ⟨?_, ?_, rfl⟩
  · intro word h1 h2
    rw [main_action _ _ _ _ h1]
    unfold dispatch
    have ne : ∀ s ∈ actions, word ≠ ascii s := fun s hs e => h2 (List.mem_map.2 ⟨s, hs, e.symm⟩)
    rw [if_neg (ne _ (by decide)), if_neg (ne _ (by decide)), if_neg (ne _ (by decide)), if_neg (ne _ (by decide)), if_neg (ne _ (by decide)), if_neg (ne _ (by decide)),
      if_neg (ne _ (by decide)), if_neg (ne _ (by decide)), if_neg (ne _ (by decide)), if_neg (ne _ (by decide)), if_neg (ne _ (by decide))]
  · intro action ha hb hh
    have go : ∀ {σ : Type} (t : OptTable) (step : Char → Bytes → σ → Option σ) (init : σ) (k : σ → List Bytes → Ran), t = tableOf action →
        withOpts t step init w args k = .exit .failed .nothing w := by
      intro σ t step init k ht
      unfold withOpts
      rw [ht, optLoop_bad step _ init hb hh]
      rfl
    simp only [actions, List.mem_cons, List.not_mem_nil, or_false] at ha
    rcases ha with h | h | h | h | h | h | h | h | h | h | h <;> subst h
    · rw [main_create]; unfold actionCreate withFile; exact go createTable _ _ _ rfl
    · rw [main_add]; unfold actionAdd withFile; exact go addTable _ _ _ rfl
    · rw [main_show]; unfold actionShow withFile; exact go showTable _ _ _ rfl
    · rw [main_sign]; unfold actionSign withFile; exact go signTable _ _ _ rfl
    · rw [main_verify]; unfold actionVerify withFile; exact go verifyTable _ _ _ rfl
    · rw [main_generate]; exact go generateTable _ _ _ rfl
    · rw [main_transport]; unfold actionTransport withFile; exact go transportTable _ _ _ rfl
    · rw [main_set]; unfold actionSet withFile; exact go setTable _ _ _ rfl
    · rw [main_compare]; exact go compareTable _ _ _ rfl
    · rw [main_extract]; unfold actionExtract withFile; exact go extractTable _ _ _ rfl
    · rw [main_delete]; unfold actionDelete withFile; exact go deleteTable _ _ _ rfl

theorem open_long (H : HashFn) (cw : Bool) (f : Bytes) (h : 4096 ≤ f.length) : (pkgOpen H cw f).2.file = f := by
  unfold pkgOpen; rw [if_pos h]

theorem put_same (w : World) (path f : Bytes) (h : w path = some f) : w.put path (some f) = w := by
  funext p
  unfold World.put
  split
  · rename_i e; rw [e, h]
  · rfl

/-- C109, reading only: `bpak verify`, and `bpak extract` without `-o`, change no file if the package has at least the 4096 bytes of a header. -/
theorem C109_read_only (env : Env) (w : World) (args : List Bytes) (rc : Err) (out : Printed) (w' : World) (action : String)
    (ha : action = "verify" ∨ (action = "extract" ∧ lastArg 'o' (getopt extractTable args).1 = none))
    (hl : ∀ path f, (getopt (tableOf action) args).2.head? = some path → w path = some f → 4096 ≤ f.length)
    (h : bpakMain env w (ascii action :: args) = .exit rc out w') : w' = w := by
  rcases ha with rfl | ⟨rfl, ho⟩
  · rw [main_verify] at h
    rcases withFile_exit h with ⟨-, -, e, -⟩ | ⟨-, -, e⟩ | ⟨o, path, -, hp, h⟩
    · exact e
    · exact e
    · unfold verifyLine at h
      split at h
      · exact (Ran.exit.inj h).2.2.symm
      · rename_i f hf
        simp only [open_long env.H true f (hl path f hp hf), put_same w path f hf] at h
        split at h
        · exact (Ran.exit.inj h).2.2.symm
        · split at h
          · exact (Ran.exit.inj h).2.2.symm
          · split at h
            · cases h
            · exact (Ran.exit.inj h).2.2.symm
  · rw [main_extract] at h
    rcases withFile_exit h with ⟨-, -, e, -⟩ | ⟨-, -, e⟩ | ⟨o, path, hopt, hp, h⟩
    · exact e
    · exact e
    · have l := optLoop_last extractStep ExtractOpts.output 'o' (by decide) extractStep_output _ _ _ hopt
      have ho' : o.output = none := by rw [l]; exact ho
      unfold extractLine at h
      split at h
      · exact (Ran.exit.inj h).2.2.symm
      · split at h
        · exact (Ran.exit.inj h).2.2.symm
        · rename_i f hf
          simp only [open_long env.H true f (hl path f hp hf), put_same w path f hf, ho'] at h
          split at h
          · cases h
          · split at h
            · cases h
            · exact (Ran.exit.inj h).2.2.symm
            · exact (Ran.exit.inj h).2.2.symm

end Bpak
