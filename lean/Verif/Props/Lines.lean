import Verif.Proof.Lines
import Verif.Props.MainFrame
/-! C111: command lines are commands, and their sequences are sessions. -/
namespace Bpak
variable [LzmaLib]

/-- What C111 says of a line: either it fails or asks for nothing, and the package stays as it was, or it does what it asks for. -/
def ActsAs (env : Env) (w : World) (path : Bytes) (c : Option (Cmd Key)) (rc : Err) (w' : World) : Prop :=
  (w' path = w path ∧ (rc ≠ .ok ∨ c = none)) ∨ ∃ c', c = some c' ∧ cmdStep env.H (mbedScheme env.M) (w path) c' = some (rc, w' path)

theorem put_at (w : World) (path : Bytes) (x : Option Bytes) : w.put path x path = x := if_pos rfl

/-- A command that works in place. -/
theorem inPlace_acts {env : Env} {w0 w : World} {path f : Bytes} {c : Cmd Key} {rc : Err} {out : Printed} {w' : World} {x : Option (Out (Err × Bytes))} (hf : w0 path = some f)
    (hc : ∀ e g, x = some (.ret (e, g)) → cmdStep env.H (mbedScheme env.M) (some f) c = some (e, some g)) (h : inPlace w path x = .exit rc out w') : ActsAs env w0 path (some c) rc w' := by
  unfold inPlace at h
  split at h
  · cases h
  · cases h
  · rename_i e g
    obtain ⟨h1, -, h3⟩ := Ran.exit.inj h
    subst h1; subst h3
    refine .inr ⟨c, rfl, ?_⟩
    rw [hf, put_at]
    exact hc e g rfl

/-- A command that fails in place. -/
theorem inPlace_fails {env : Env} {w0 w : World} {path f : Bytes} {c : Option (Cmd Key)} {rc : Err} {out : Printed} {w' : World} {x : Option (Out (Err × Bytes))} (hf : w0 path = some f)
    (hc : ∀ e g, x = some (.ret (e, g)) → e ≠ .ok ∧ g = f) (h : inPlace w path x = .exit rc out w') : ActsAs env w0 path c rc w' := by
  unfold inPlace at h
  split at h
  · cases h
  · cases h
  · rename_i e g
    obtain ⟨h1, -, h3⟩ := Ran.exit.inj h
    subst h1; subst h3
    obtain ⟨h1, h2⟩ := hc e g rfl
    exact .inl ⟨by rw [put_at, h2, hf], .inl h1⟩

theorem same_acts {env : Env} {w : World} {path : Bytes} {c : Option (Cmd Key)} {rc : Err} {out : Printed} {w' : World} {e : Err} {x : Printed} (he : e ≠ .ok) (h : Ran.exit e x w = .exit rc out w') :
    ActsAs env w path c rc w' := by
  obtain ⟨h1, -, h3⟩ := Ran.exit.inj h
  subst h1; subst h3
  exact .inl ⟨rfl, .inl he⟩

theorem help_none (env : Env) (w : World) (action : String) (args : List Bytes) (h : AsksHelp (getopt (tableOf action) args).1) : lineCmd env w action args = none := by
  obtain ⟨a, ha⟩ := h
  unfold lineCmd
  simp only
  rw [if_pos]
  intro hn
  have key : ∀ (evs : List OptEv) (x : Option Bytes), (x ≠ none ∨ OptEv.opt 'h' a ∈ evs) →
      evs.foldl (fun x e => match e with | .opt d a => if d = 'h' then some a else x | .bad => x) x ≠ none := by
    intro evs
    induction evs with
    | nil =>
      rintro x (h | h)
      · exact h
      · cases h
    | cons e es ih =>
      intro x h
      rw [List.foldl_cons]
      apply ih
      rcases h with h | h
      · cases e with
        | bad => exact .inl h
        | opt d b =>
          simp only
          split
          · exact .inl (fun h => (by cases h))
          · exact .inl h
      · rcases List.mem_cons.1 h with h | h
        · subst h; exact .inl (by simp)
        · exact .inr h
  exact key _ none (.inr ha) hn

/-- Line by line; `k` is the part after the options. -/
theorem withFile_acts {σ : Type} {env : Env} {t : OptTable} {step : Char → Bytes → σ → Option σ} {init : σ} {w : World} {action : String} {args : List Bytes} {k : σ → Bytes → Ran} {path : Bytes} {rc : Err}
    {out : Printed} {w' : World} (ht : tableOf action = t) (hp : (getopt (tableOf action) args).2.head? = some path)
    (hk : ∀ o, optLoop step (getopt t args).1 init = .ok o → lastArg 'h' (getopt t args).1 = none → k o path = .exit rc out w' → ActsAs env w path (lineCmd env w action args) rc w')
    (h : withFile t step init w args k = .exit rc out w') : ActsAs env w path (lineCmd env w action args) rc w' := by
  subst ht
  rcases withFile_exit h with ⟨-, -, e, hh⟩ | ⟨h1, -, e⟩ | ⟨o, p, h1, h2, h3⟩
  · exact .inl ⟨by rw [e], .inr (help_none _ _ _ _ hh.asks)⟩
  · exact .inl ⟨by rw [e], .inl (by rw [h1]; exact fun h => (by cases h))⟩
  · rw [hp] at h2
    cases h2
    refine hk o h1 ?_ h3
    exact lastArg_none (fun a ha => (optLoop_clean _ _ _ _ h1).2 ⟨a, ha⟩)

theorem open_eq (H : HashFn) (f : Bytes) (h : 4096 ≤ f.length) : pkgOpen H true f = (validHeader (parseHeader (f.take 4096)), ⟨parseHeader (f.take 4096), f, []⟩) := by
  unfold pkgOpen; rw [if_pos h]

theorem addPartLine_acts {env : Env} {w : World} {path f name : Bytes} {o : AddLine} {rc : Err} {out : Printed} {w' : World} (hf : w path = some f) (hl : 4096 ≤ f.length)
    (h : addPartLine env w path f name o = .exit rc out w') (c : Option (Cmd Key))
    (hc : ∀ d, o.fromFile.bind w = some d → c = some (.addPart name o.dontHash o.encoder (some d) ((mbedLoadPublic env.M (some d)).map Key.data) env.salt)) : ActsAs env w path c rc w' := by
  have fails : ∀ {src key}, (∀ d, src = some d → (o.encoder ≠ none ∧ o.encoder ≠ some (ascii "key") ∧ o.encoder ≠ some (ascii "merkle")) ∨
      (o.encoder = some (ascii "key") ∧ ∃ e, key = .error e ∧ e ≠ Err.ok)) → ∀ e g,
      addPartCmd env.H f name o.dontHash o.encoder src key env.salt = some (.ret (e, g)) → e ≠ .ok ∧ g = f := by
    intro src key hn e g hx
    unfold addPartCmd at hx
    rw [open_eq _ _ hl] at hx
    simp only at hx
    split at hx
    · rename_i hne
      obtain ⟨h1, h2⟩ := Prod.mk.inj (Out.ret.inj (Option.some.inj hx))
      subst h1; subst h2
      exact ⟨hne, rfl⟩
    · split at hx
      · cases hx
      · rename_i d
        rcases hn d rfl with ⟨e1, e2, e3⟩ | ⟨e1, er, e2, e3⟩
        · split at hx
          · rename_i hen; exact absurd hen e1
          · rename_i enc hen
            rw [if_neg (fun h => e2 (by rw [hen, h])), if_neg (fun h => e3 (by rw [hen, h]))] at hx
            obtain ⟨h1, h2⟩ := Prod.mk.inj (Out.ret.inj (Option.some.inj hx))
            subst h1; subst h2
            exact ⟨fun h => (by cases h), rfl⟩
        · rw [e1] at hx
          simp only [if_pos] at hx
          rw [e2] at hx
          unfold addKey at hx
          simp only at hx
          obtain ⟨h1, h2⟩ := Prod.mk.inj (Out.ret.inj (Option.some.inj hx))
          subst h1; subst h2
          exact ⟨e3, rfl⟩
  unfold addPartLine at h
  simp only at h
  split at h
  · rename_i hu
    exact inPlace_fails hf (fails (fun d _ => .inl (by simpa using hu))) h
  · split at h
    · cases h
    · split at h
      · exact inPlace_fails hf (fails (fun d h => (by cases h))) h
      · rename_i src hsrc
        split at h
        · rename_i d hd
          rw [hc d (by rw [hsrc]; exact hd)]
          refine inPlace_acts hf ?_ h
          intro e g hx
          unfold cmdStep
          simp only [hx, Option.bind_some]
        · have ef : (pkgOpen env.H true f).2.file = f := open_long _ _ _ hl
          split at h
          · rename_i hne
            rw [ef] at h
            obtain ⟨h1, -, h3⟩ := Ran.exit.inj h
            subst h1; subst h3
            exact .inl ⟨by rw [put_at, hf], .inl hne⟩
          · split at h
            · rename_i hk
              refine inPlace_fails hf (fails (fun d _ => .inr ⟨hk, ?_⟩)) h
              cases hm : mbedLoadPublic env.M none with
              | ok k => exact absurd hm (by unfold mbedLoadPublic; simp [derInto])
              | error e =>
                refine ⟨e, rfl, ?_⟩
                rcases (C101_codes env.M _ _).1 hm with h | ⟨h, -⟩ <;> subst h <;> exact fun h => (by cases h)
            · rw [ef] at h
              obtain ⟨h1, -, h3⟩ := Ran.exit.inj h
              subst h1; subst h3
              exact .inl ⟨by rw [put_at, hf], .inl (fun h => (by cases h))⟩

/-- C111, one line: a line of any action that has `path` as its first operand, where there is no file or one with at least a header's length: it either fails or does not ask for a change, and the file stays as it was; or
it does to the file what it asks for, and exits with that code. -/
theorem C111_line (env : Env) (w : World) (path : Bytes) (action : String) (ha : action ∈ actions) (args : List Bytes) (hp : (getopt (tableOf action) args).2.head? = some path)
    (hl : ∀ f, w path = some f → 4096 ≤ f.length) (rc : Err) (out : Printed) (w' : World) (h : bpakMain env w (ascii action :: args) = .exit rc out w') :
    (w' path = w path ∧ (rc ≠ .ok ∨ lineCmd env w action args = none)) ∨
    ∃ c, lineCmd env w action args = some c ∧ cmdStep env.H (mbedScheme env.M) (w path) c = some (rc, w' path) := by
  show ActsAs env w path (lineCmd env w action args) rc w'
  have quiet : w' path = w path → lineCmd env w action args = none → ActsAs env w path (lineCmd env w action args) rc w' := fun h1 h2 => .inl ⟨h1, .inr h2⟩
  have none_of : ∀ s : String, s ∈ ["show", "verify", "generate", "compare", "extract"] → s = action → lineCmd env w action args = none := by
    intro s hs e
    subst e
    simp only [List.mem_cons, List.not_mem_nil, or_false] at hs
    rcases hs with h | h | h | h | h <;> subst h <;> (unfold lineCmd; simp only; split <;> rfl)
  simp only [actions, List.mem_cons, List.not_mem_nil, or_false] at ha
  rcases ha with e | e | e | e | e | e | e | e | e | e | e <;> subst e
  · rw [main_create] at h
    refine withFile_acts rfl hp ?_ h
    intro o ho hh hk
    obtain ⟨o1, o2, o3⟩ := create_opts ho
    unfold createLine at hk
    obtain ⟨h1, -, h3⟩ := Ran.exit.inj hk
    subst h1; subst h3
    refine .inr ⟨.create o.hash o.sig o.force env.answer, ?_, ?_⟩
    · unfold lineCmd
      simp only
      rw [if_neg (by simpa using hh), o1, o2, o3]
    · rw [put_at]
      unfold cmdStep
      cases w path <;> rfl
  · rw [main_add] at h
    refine withFile_acts rfl hp ?_ h
    intro o ho hh hk
    obtain ⟨o1, o2, o3, o4, o5, o6, o7⟩ := add_opts ho
    unfold addLine at hk
    split at hk
    · exact same_acts (fun h => (by cases h)) hk
    · split at hk
      · exact same_acts (fun h => (by cases h)) hk
      · split at hk
        · exact same_acts (fun h => (by cases h)) hk
        · rename_i f hf
          have hlf := hl f hf
          split at hk
          · rename_i m hm
            simp only [open_long env.H true f hlf, put_same w path f hf] at hk
            have hsrc : ∀ src, (match o.fromString with | some s => AddSource.text s | none => .file (o.fromFile.bind w)) = src →
                lineCmd env w "add" args = some (.addMeta ⟨m, src, o.ref, o.encoder⟩) := by
              intro src hs
              unfold lineCmd
              simp only
              rw [if_neg (by simpa using hh)]
              have : lastArg 'm' (getopt (tableOf "add") args).1 = some m := by rw [← hm, o2]
              simp only [this]
              rw [← hs, o3, o4, o5, o6]
              rfl
            cases hfs : o.fromString with
            | some sx =>
              rw [hsrc (.text sx) (by rw [hfs])]
              simp only [hfs] at hk
              refine inPlace_acts hf ?_ hk
              intro e g hx
              unfold cmdStep
              simp only [Option.some.inj hx]
            | none =>
              rw [hsrc (.file (o.fromFile.bind w)) (by rw [hfs])]
              simp only [hfs] at hk
              refine inPlace_acts hf ?_ hk
              intro e g hx
              unfold cmdStep
              simp only [Option.some.inj hx]
          · rename_i hm
            refine addPartLine_acts hf hlf hk _ ?_
            intro d hd
            unfold lineCmd
            simp only
            rw [if_neg (by simpa using hh)]
            have h1 : lastArg 'm' (getopt (tableOf "add") args).1 = none := by rw [← hm, o2]
            have h2 : (lastArg 'f' (getopt (tableOf "add") args).1).bind w = some d := by rw [← hd, o3]
            have h3 : lastArg 'p' (getopt (tableOf "add") args).1 = some (o.part.getD []) := by
              have : o.part = lastArg 'p' (getopt (tableOf "add") args).1 := o1
              cases hx : o.part with
              | none => rename_i hno _ _ _; exact absurd (And.intro hx hm) hno
              | some n => rw [← this, hx]; rfl
            simp only [h1, h2, h3]
            rw [o5, o7]
  · refine quiet ?_ (none_of "show" (by decide) rfl)
    exact congrFun (show w' = w from by
      rw [main_show] at h
      rcases withFile_exit h with ⟨-, -, e, -⟩ | ⟨-, -, e⟩ | ⟨o, path, -, -, h⟩
      · exact e
      · exact e
      · exact showLine_within h) path
  · rw [main_sign] at h
    refine withFile_acts rfl hp ?_ h
    intro o ho hh hk
    obtain ⟨o1, o2⟩ := sign_opts ho
    unfold signLine at hk
    split at hk
    · exact same_acts (fun h => (by cases h)) hk
    · rename_i f hf
      have hlf := hl f hf
      simp only [open_long env.H true f hlf, put_same w path f hf] at hk
      split at hk
      · rename_i hne; exact same_acts hne hk
      · split at hk
        · rename_i sg hsg
          split at hk
          · exact same_acts (fun h => (by cases h)) hk
          · rename_i d hd
            have hc : lineCmd env w "sign" args = some (.signRaw d) := by
              unfold lineCmd
              simp only
              rw [if_neg (by simpa using hh)]
              have : lastArg 'f' (getopt (tableOf "sign") args).1 = some sg := by rw [← hsg, o2]
              simp only [this, hd, Option.map_some]
            rw [hc]
            refine inPlace_acts hf ?_ hk
            intro e g hx
            unfold cmdStep
            simp only [Option.some.inj hx]
        · rename_i hsg
          split at hk
          · cases hk
          · rename_i k hkey
            have hc : lineCmd env w "sign" args = some (.sign (mbedLoadPrivate env.M env.seeded (w k)) env.rnd) := by
              unfold lineCmd
              simp only
              rw [if_neg (by simpa using hh)]
              have h1 : lastArg 'f' (getopt (tableOf "sign") args).1 = none := by rw [← hsg, o2]
              have h2 : lastArg 'k' (getopt (tableOf "sign") args).1 = some k := by rw [← hkey, o1]
              simp only [h1, h2, Option.map_some]
            rw [hc]
            refine inPlace_acts hf ?_ hk
            intro e g hx
            unfold cmdStep
            simp only [Out.ret.inj (Option.some.inj hx)]
  · refine quiet ?_ (none_of "verify" (by decide) rfl)
    exact congrFun (C109_read_only env w args rc out w' "verify" (.inl rfl) (fun p f h1 h2 => by rw [hp] at h1; cases h1; exact hl f h2) h) path
  · refine quiet ?_ (none_of "generate" (by decide) rfl)
    rw [main_generate] at h
    exact congrFun (generate_same h) path
  · rw [main_transport] at h
    refine withFile_acts rfl hp ?_ h
    intro o ho hh hk
    obtain ⟨o1, o2, o3, o4⟩ := transport_opts ho
    unfold transportLine at hk
    split at hk
    · exact same_acts (fun h => (by cases h)) hk
    · rename_i hcount
      split at hk
      · exact same_acts (fun h => (by cases h)) hk
      · rename_i f hf
        have hlf := hl f hf
        simp only [open_long env.H true f hlf, put_same w path f hf] at hk
        have quiet2 : ∀ {e x} {v : World}, v path = w path → e ≠ Err.ok → Ran.exit e x v = .exit rc out w' → ActsAs env w path (lineCmd env w "transport" args) rc w' := by
          intro e x v hv he h
          obtain ⟨h1, -, h3⟩ := Ran.exit.inj h
          subst h1; subst h3
          exact .inl ⟨hv, .inl he⟩
        have run : ∀ {v org}, v path = w path → transportRun env v path f org o = .exit rc out w' → ActsAs env w path (lineCmd env w "transport" args) rc w' := by
          intro v org hv hr
          unfold transportRun at hr
          split at hr
          · rename_i hed
            split at hr
            · exact quiet2 hv (fun h => (by cases h)) hr
            · rename_i x hx
              split at hr
              · cases hr
              · rename_i hne
                have hout : ∀ d, toOutput env v x d = .exit rc out w' → w' path = w path := by
                  intro d hd
                  unfold toOutput at hd
                  have hxp : ¬ path = x := fun e => hne (.inl e.symm)
                  split at hd
                  · rw [← (Ran.exit.inj hd).2.2]; unfold World.put; rw [if_neg hxp]; exact hv
                  · rw [← (Ran.exit.inj hd).2.2]; unfold World.put; rw [if_neg hxp]; exact hv
                  · cases hd
                  · cases hd
                have hnone : lineCmd env w "transport" args = none := by
                  unfold lineCmd
                  simp only
                  rw [if_neg (by simpa using hh)]
                  have : lastArg 'a' (getopt (tableOf "transport") args).1 = none := by
                    have e1 : o.add = (lastArg 'a' (getopt (tableOf "transport") args).1).isSome := o1
                    cases hx : lastArg 'a' (getopt (tableOf "transport") args).1 with
                    | none => rfl
                    | some y =>
                      rw [hx] at e1
                      exfalso
                      apply hcount
                      rw [e1]
                      cases h1 : o.encode <;> cases h2 : o.decode <;> simp_all
                  simp only [this]
                split at hr
                · exact .inl ⟨hout _ hr, .inr hnone⟩
                · exact .inl ⟨hout _ hr, .inr hnone⟩
          · split at hr
            · rename_i enc dec h1 h2 h3
              have hc : lineCmd env w "transport" args = some (.transportAdd o.ref enc dec) := by
                unfold lineCmd
                simp only
                rw [if_neg (by simpa using hh)]
                have e1 : (lastArg 'a' (getopt (tableOf "transport") args).1).isSome = true := by rw [← h1, o1]
                obtain ⟨y, hy⟩ := Option.isSome_iff_exists.1 e1
                have e2 : lastArg 'e' (getopt (tableOf "transport") args).1 = some enc := by rw [← h2, o2]
                have e3 : lastArg 'd' (getopt (tableOf "transport") args).1 = some dec := by rw [← h3, o3]
                simp only [hy, e2, e3]
                rw [o4]
              rw [hc]
              refine inPlace_acts hf ?_ hr
              intro e g hx
              unfold cmdStep
              simp only [Option.some.inj hx]
            · exact quiet2 hv (fun h => (by cases h)) hr
        split at hk
        · rename_i hne; exact same_acts hne hk
        · split at hk
          · exact run rfl hk
          · rename_i g hg
            split at hk
            · exact same_acts (fun h => (by cases h)) hk
            · rename_i fo hfo
              have hput : (w.put g (some (pkgOpen env.H true fo).2.file)) path = w path := by
                by_cases e : path = g
                · subst e
                  rw [hf] at hfo
                  cases hfo
                  rw [put_at, open_long _ _ _ hlf, hf]
                · unfold World.put; rw [if_neg e]
              split at hk
              · rename_i hne; exact quiet2 hput hne hk
              · exact run hput hk
  · rw [main_set] at h
    refine withFile_acts rfl hp ?_ h
    intro o ho hh hk
    obtain ⟨o1, o2, o3, o4, o5⟩ := set_opts ho
    unfold setLine at hk
    split at hk
    · rename_i f hf
      have hc : lineCmd env w "set" args = some (.set o) := by
        unfold lineCmd
        simp only
        rw [if_neg (by simpa using hh)]
        cases o
        simp only at o1 o2 o3 o4 o5
        rw [o1, o2, o3, o4, o5]
      rw [hc]
      refine inPlace_acts hf ?_ hk
      intro e g hx
      unfold cmdStep
      simp only [Option.some.inj hx]
    · split at hk
      · exact same_acts (fun h => (by cases h)) hk
      · split at hk
        · exact same_acts (fun h => (by cases h)) hk
        · exact same_acts (fun h => (by cases h)) hk
  · refine quiet ?_ (none_of "compare" (by decide) rfl)
    rw [main_compare] at h
    exact congrFun (compare_same h) path
  · refine quiet ?_ (none_of "extract" (by decide) rfl)
    rw [main_extract] at h
    rcases withFile_exit h with ⟨-, -, e, -⟩ | ⟨-, -, e⟩ | ⟨o, path', -, hp', h⟩
    · rw [e]
    · rw [e]
    · have e : path' = path := by
        have := hp'.symm.trans hp
        exact Option.some.inj this
      subst e
      unfold extractLine at h
      split at h
      · rw [← (Ran.exit.inj h).2.2]
      · split at h
        · rw [← (Ran.exit.inj h).2.2]
        · rename_i f hf
          simp only [open_long env.H true f (hl f hf), put_same w path' f hf] at h
          split at h
          · cases h
          · rename_i hne
            split at h
            · cases h
            · rw [← (Ran.exit.inj h).2.2]
            · split at h
              · rw [← (Ran.exit.inj h).2.2]
              · rename_i x hx
                rw [← (Ran.exit.inj h).2.2]
                unfold World.put
                rw [if_neg (fun e => hne (by rw [hx, e]))]
  · rw [main_delete] at h
    refine withFile_acts rfl hp ?_ h
    intro o ho hh hk
    obtain ⟨o1, o2, o3⟩ := delete_opts ho
    unfold deleteLine at hk
    split at hk
    · rename_i f hf
      have hc : lineCmd env w "delete" args = some (.delete o.part o.all o.keep) := by
        unfold lineCmd
        simp only
        rw [if_neg (by simpa using hh), o1, o2, o3]
      rw [hc]
      refine inPlace_acts hf ?_ hk
      intro e g hx
      unfold cmdStep
      simp only [hx, Option.bind_some]
    · split at hk
      · exact same_acts (fun h => (by cases h)) hk
      · exact same_acts (fun h => (by cases h)) hk

/-- C111, sequences: after any sequence of command lines the package is what a session of commands (C84) makes of it whose successful commands are the successful lines, in their order. -/
theorem C111_lines_are_a_session (H : HashFn) (hH : HashLen H) (M : Mbed) (path : Bytes) (t : List (Cmd Key × Err)) (w : World) (h : Lines H M path t w) :
    ∃ t', Session H (mbedScheme M) t' (w path) ∧ t'.filter (fun x => decide (x.2 = .ok)) = t.filter (fun x => decide (x.2 = .ok)) ∧ t'.Sublist t := by
  induction h with
  | start h => exact ⟨[], by rw [h]; exact .start, rfl, List.Sublist.refl _⟩
  | other _ h ih => rw [h]; exact ih
  | @line t w w' env action args rc out hprev eH eM ha hp hrun hallow ih =>
    subst eH; subst eM
    obtain ⟨t', hs, ht, hsub⟩ := ih
    have hl : ∀ f, w path = some f → 4096 ≤ f.length := by
      intro f hf
      rw [hf] at hs
      rcases session_inv hH _ (mbed_sign_err env.M) hs with ⟨h, -⟩ | ⟨p, hp, i⟩
      · cases h
      · cases hp; exact i.saved.1
    rcases C111_line env w path action ha args hp hl rc out w' hrun with ⟨h1, h2⟩ | ⟨c, h1, h2⟩
    · refine ⟨t', by rw [h1]; exact hs, ?_, hsub.trans (List.sublist_append_left _ _)⟩
      rw [ht, List.filter_append]
      have : ((lineCmd env w action args).toList.map (fun c => (c, rc))).filter (fun x => decide (x.2 = .ok)) = [] := by
        rcases h2 with h2 | h2
        · rw [List.filter_eq_nil_iff]
          intro x hx
          obtain ⟨c, -, rfl⟩ := List.mem_map.1 hx
          simpa using h2
        · rw [h2]; rfl
      rw [this, List.append_nil]
    · obtain ⟨ha, hb⟩ := hallow c h1
      refine ⟨t' ++ [(c, rc)], .run hs ha h2 hb, ?_, ?_⟩
      · rw [h1, List.filter_append, List.filter_append, ht]
        rfl
      · rw [h1]
        exact hsub.append (List.Sublist.refl _)

theorem sessionFiles_filter {SK : Type} (H : HashFn) (t : List (Cmd SK × Err)) : sessionFiles H (t.filter (fun x => decide (x.2 = .ok))) = sessionFiles H t := by
  have key : ∀ (t : List (Cmd SK × Err)) (s : List (U32 × Bytes)), (t.filter (fun x => decide (x.2 = .ok))).foldl (sessionStep H) s = t.foldl (sessionStep H) s := by
    intro t
    induction t with
    | nil => intro s; rfl
    | cons x xs ih =>
      intro s
      by_cases hx : x.2 = .ok
      · rw [List.filter_cons_of_pos (by simpa using hx), List.foldl_cons, List.foldl_cons, ih]
      · rw [List.filter_cons_of_neg (by simpa using hx), List.foldl_cons, ih, sessionStep_fail H _ _ hx]
  exact key t []

/-- C111, what is in the package: after any sequence of command lines the package opens, its header is valid and its payload hash right, no id is taken twice, and `bpak extract --part NAME` delivers exactly the file that
the successful lines left under that name. -/
theorem C111_contents (H : HashFn) (hH : HashLen H) (M : Mbed) (path f : Bytes) (t : List (Cmd Key × Err)) (w : World) (h : Lines H M path t w) (hf : w path = some f) :
    ∃ hdr, 4096 ≤ f.length ∧ pkgOpen H true f = (.ok, ⟨hdr, f, []⟩) ∧ validHeader hdr = .ok ∧ HashStored H ⟨hdr, f, []⟩ ∧
    (usedParts hdr).map (fun q => (q.id, q.size.toNat)) = (sessionFiles H t).map (fun c => (c.1, c.2.length)) ∧
    (sessionFiles H t).Pairwise (fun a b => a.1 ≠ b.1) ∧
    ∀ name, idForNameOrRef name ≠ 0 → extractCmd H f (some name) none none =
      match (sessionFiles H t).find? (fun c => decide (c.1 = idForNameOrRef name)) with
      | none => .ret (.notFound, none)
      | some c => .ret (.ok, some c.2) := by
  obtain ⟨t', hs, ht, -⟩ := C111_lines_are_a_session H hH M path t w h
  rw [hf] at hs
  have e : sessionFiles H t' = sessionFiles H t := by rw [← sessionFiles_filter, ht, sessionFiles_filter]
  obtain ⟨hdr, a1, -, a2, a3, a4, a5, a6, -, a7⟩ := C84_session H hH _ (mbed_sign_err M) t' f hs
  rw [e] at a5 a6 a7
  exact ⟨hdr, a1, a2, a3, a4, a5, a6, a7⟩

end Bpak
