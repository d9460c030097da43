import Verif.Proof.ResourcePy

/-!
# C116, C117, C118: what is taken is given back

A `Luck` says how every call ends, so "for every `Luck`" covers every outcome of every call: files that cannot be opened, reads
and writes that fail, data that is refused, keys that cannot be decoded, and (where `Enough` is not assumed) memory that runs
out. The numbers `n`, `m` and `d` are the numbers of rounds of the loops and the depth of a recursion.
-/

namespace Bpak

open Res Spec

variable (l : Luck)

/-! ## C116: with the C library's allocator -/

/-- The suffix sort of an LZMA, heatshrink or plain delta gives back its tables on every path, even when memory runs out at any
point and at any depth of its recursion. -/
theorem C116_suffix_sort (over : Bool) (d : Nat) : Tidy over (trace l (sais d)) := trace_keeps (sais_keeps d [])

/-- A program that opens a package, makes any calls on it, and closes it: everything is given back once and used only in
between, however the calls end, and nothing is left; calls that load a key from a key file are the exception. Memory may run
out, except in the call that adds a part with its hash tree. -/
theorem C116_session (n : Nat) (cs : List Call) (hk : ∀ c ∈ cs, ¬ LoadsKey c)
    (hm : Enough l ∨ ∀ c ∈ cs, ¬ TrustsMemory c) : Tidy false (trace l (session n cs)) :=
  trace_keeps (session_keeps n cs fun c hc => ⟨hm.imp_right fun h => h c hc, hk c hc, Or.inl rfl⟩)

/-- Missing: calls that load a key from a key file leave an mbedtls key context (`C116_key_context_left`); nothing else is
left. -/
theorem C116_session_partial (n : Nat) (cs : List Call) (hm : Enough l) :
    Clean false (trace l (session n cs)) ∧ ∀ i k, Left (trace l (session n cs)) i k → k = .pk := by
  obtain ⟨h1, L', ⟨C, hC, rfl⟩, h3⟩ := trace_runs (session_runs (over := false) (l := l) (L := []) n cs hm (Or.inl rfl))
  refine ⟨h1, fun i k hl => ?_⟩
  have := (h3 i k).2 hl
  rw [List.append_nil] at this
  exact hC _ this

/-- Encoding, and decoding a package without LZMA deltas: everything is given back. -/
theorem C116_transport (n : Nat) (dec : Bool) (ps : List Coding) (hm : Enough l)
    (hp : dec = true → Coding.delta .lzma ∉ ps) : Tidy false (trace l (transportSession n dec ps)) := by
  obtain ⟨h1, L', h2, h3⟩ := trace_runs (transportSession_runs (over := false) (l := l) (L := []) n dec ps (Or.inl rfl) hm)
  refine ⟨h1, fun i k hl => ?_⟩
  have hmem := (h3 i k).2 hl
  rcases h2 with rfl | ⟨⟨hd, hz⟩, _⟩
  · cases hmem
  · exact hp hd hz

/-- Missing: a decoder of an LZMA delta is left when its data cannot be read or decoded (`C116_decoder_left`); it is one, and
nothing else is left. -/
theorem C116_transport_partial (n : Nat) (dec : Bool) (ps : List Coding) (hm : Enough l) :
    Clean false (trace l (transportSession n dec ps)) ∧
      ((∀ i k, ¬ Left (trace l (transportSession n dec ps)) i k) ∨
        ∃ j, ∀ i k, Left (trace l (transportSession n dec ps)) i k ↔ i = j ∧ k = .heap) := by
  obtain ⟨h1, L', h2, h3⟩ := trace_runs (transportSession_runs (over := false) (l := l) (L := []) n dec ps (Or.inl rfl) hm)
  refine ⟨h1, ?_⟩
  rcases h2 with rfl | ⟨_, j, rfl⟩
  · exact Or.inl fun i k hl => nomatch (h3 i k).2 hl
  · exact Or.inr ⟨j, fun i k => by rw [← h3 i k]; simp⟩

/-- Every command line but `transport --encode` and `--decode`: missing is the key context left by `add` with a key and by
`verify` with a key file; nothing else is left. -/
theorem C116_commands_partial (c : Cmd) (hm : Enough l) :
    Clean false (trace l c.run) ∧ ∀ i k, Left (trace l c.run) i k → k = .pk := by
  obtain ⟨h1, L', ⟨C, hC, rfl⟩, h3⟩ := trace_runs (cmd_runs (l := l) (L := []) c hm)
  refine ⟨h1, fun i k hl => ?_⟩
  have := (h3 i k).2 hl
  rw [List.append_nil] at this
  exact hC _ this

/-- `transport --encode` and `--decode`: missing is the output (or, when the origin cannot be opened, the input), which is not
closed, and the decoders of LZMA deltas. Nothing is released twice or used after it was released, and at most one file is
left. -/
theorem C116_transport_command_partial (n : Nat) (dec : Bool) (ps : List Coding) (hm : Enough l) :
    Clean false (trace l (cmdTransport n dec ps)) ∧
      (∀ i k, Left (trace l (cmdTransport n dec ps)) i k → k = .heap ∨ k = .file) ∧
      ∀ i j, Left (trace l (cmdTransport n dec ps)) i .file → Left (trace l (cmdTransport n dec ps)) j .file → i = j := by
  obtain ⟨h1, L', ⟨C, hC, h2⟩, h3⟩ := trace_runs (cmdTransport_runs (l := l) (L := []) n dec ps hm)
  refine ⟨h1, fun i k hl => ?_, fun i j hi hj => ?_⟩
  · have hmem := (h3 i k).2 hl
    rcases h2 with rfl | ⟨x, rfl⟩
    · rw [List.append_nil] at hmem
      exact Or.inl (hC _ hmem)
    · rcases List.mem_append.1 hmem with h | h
      · exact Or.inl (hC _ h)
      · cases List.mem_singleton.1 h
        exact Or.inr rfl
  · have hi := (h3 i _).2 hi
    have hj := (h3 j _).2 hj
    rcases h2 with rfl | ⟨x, rfl⟩
    · rw [List.append_nil] at hi
      cases hC _ hi
    · rcases List.mem_append.1 hi with h | h
      · cases hC _ h
      rcases List.mem_append.1 hj with h' | h'
      · cases hC _ h'
      cases List.mem_singleton.1 h
      cases List.mem_singleton.1 h'
      rfl

/-! ## C117: a Python package object -/

/-- A package object whose constructor succeeds, or fails without opening the file, on which methods are called and which is
then closed or left any number of times, also not at all: the file is closed once and everything is given back; missing are the
key contexts of `verify` and of added keys, and what the two theorems below refute. -/
theorem C117_life_partial (n : Nat) (cs : List Call) (ps : List PyOp) (hm : Enough l)
    (hp : ∀ p ∈ ps, p = .close ∨ p = .exit)
    (ho : (pkgOpen n l ⟨0, 0, []⟩).1.1 = true ∨ trace l (pkgOpen n) = []) :
    Clean false (trace l (pyLife n (cs.map .call ++ ps))) ∧
      ∀ i k, Left (trace l (pyLife n (cs.map .call ++ ps))) i k → k = .pk :=
  pyLife_good cs ps hm hp ho

/-- Whenever the constructor fails after the file was opened (a bad header, a read that fails, ...), the stream is closed twice:
lib/pkg.c:87-89 leaves `pkg->fp` as it is, and python/package.c:42-48 closes it again. -/
theorem C117_failed_constructor (over : Bool) (n : Nat) (ps : List PyOp) (hf : (pkgOpen n l ⟨0, 0, []⟩).1.1 = false)
    (ho : trace l (pkgOpen n) ≠ []) : ¬ Clean over (trace l (pyLife n ps)) := pyLife_failed ps hf ho

/-! ## C118: with an allocator of the application's own -/

/-- Memory of an installed allocator is released with the allocator's own function and memory of the C library with `free`, in
any session without the calls that release a key with `free`. -/
theorem C118_session_partial (n : Nat) (cs : List Call) (hc : ∀ c ∈ cs, ¬ FreesForeign c)
    (hm : Enough l ∨ ∀ c ∈ cs, ¬ TrustsMemory c) : Tidy true (trace l (session n cs)) :=
  trace_keeps (session_keeps n cs fun c h => ⟨hm.imp_right fun h' => h' c h, fun ⟨n, hn⟩ => hc c h ⟨n, by
    rcases hn with hn | hn
    · exact Or.inl hn
    · exact Or.inr (Or.inl hn)⟩, Or.inr (hc c h)⟩)

/-- The same for encoding and decoding without LZMA deltas. -/
theorem C118_transport_partial (n : Nat) (dec : Bool) (ps : List Coding) (hm : Enough l)
    (hp : Coding.delta .lzma ∉ ps) : Tidy true (trace l (transportSession n dec ps)) := by
  obtain ⟨h1, L', h2, h3⟩ := trace_runs (transportSession_runs (over := true) (l := l) (L := []) n dec ps (Or.inr hp) hm)
  refine ⟨h1, fun i k hl => ?_⟩
  have hmem := (h3 i k).2 hl
  rcases h2 with rfl | ⟨⟨hd, hz⟩, _⟩
  · cases hmem
  · exact hp hz

/-! ## What does not hold -/

/-- No call fails. -/
def Res.fine : Luck := ⟨fun _ => true, fun _ => true⟩

/-- Call number `i` fails. -/
def Res.failAt (i : Nat) : Luck := ⟨fun j => j != i, fun _ => true⟩

/-- Memory runs out at call number `i`. -/
def Res.outAt (i : Nat) : Luck := ⟨fun _ => true, fun j => j != i⟩

theorem kind_all {p : Kind → Prop} : (∀ k, p k) ↔ p .file ∧ p .heap ∧ p .lib ∧ p .map ∧ p .pk :=
  ⟨fun h => ⟨h _, h _, h _, h _, h _⟩, fun ⟨a, b, c, d, e⟩ k => by cases k <;> assumption⟩

theorem kind_some {p : Kind → Prop} : (∃ k, p k) ↔ p .file ∨ p .heap ∨ p .lib ∨ p .map ∨ p .pk :=
  ⟨fun ⟨k, h⟩ => by cases k <;> simp [h], fun h => by
    rcases h with h | h | h | h | h <;> exact ⟨_, h⟩⟩

instance {p : Kind → Prop} [DecidablePred p] : Decidable (∀ k, p k) := decidable_of_iff _ kind_all.symm

instance {p : Kind → Prop} [DecidablePred p] : Decidable (∃ k, p k) := decidable_of_iff _ kind_some.symm

instance (over : Bool) (t : List Ev) (e : Ev) : Decidable (InOrder over t e) := by
  cases e <;> unfold InOrder <;> infer_instance

instance (over : Bool) (t : List Ev) : Decidable (Clean over t) := by unfold Clean; infer_instance

instance (t : List Ev) (n : Nat) (k : Kind) : Decidable (Left t n k) := by unfold Left; infer_instance

/-- Nothing fails, and yet: adding a key and verifying with a key file each leave a key context. -/
theorem C116_key_context_left : Left (trace fine (session 1 [.addKey 1])) 1 .pk ∧
    Left (trace fine (session 1 [.verify 1])) 1 .pk ∧ Left (trace fine (Cmd.verifyKey 1).run) 1 .pk := by decide

/-- A decoder of an LZMA delta is left when its data cannot be read. -/
theorem C116_decoder_left : Left (trace (failAt 24) (transportSession 1 true [.delta .lzma])) 3 .heap := by decide

/-- `bpak transport` does not close its output, and when the origin cannot be opened, it does not close its input. -/
theorem C116_transport_command_left : Left (trace fine (cmdTransport 1 true [.copy])) 2 .file ∧
    Left (trace fine (cmdTransport 1 false [.copy])) 2 .file ∧
    Left (trace (failAt 7) (cmdTransport 1 true [.copy])) 0 .file := by decide

/-- When memory runs out: adding a part with its hash tree, loading a key, `bpak set` and `bpak generate keystore` use `NULL`,
and the stream of an LZMA encoder that cannot be made is left. -/
theorem C116_out_of_memory : ¬ Clean false (trace (outAt 21) (session 1 [.addFileTree 1])) ∧
    ¬ Clean false (trace (outAt 7) (session 1 [.addKey 1])) ∧ ¬ Clean false (trace (outAt 0) (cmdSet false)) ∧
    ¬ Clean false (trace (outAt 6) (cmdKeystore 1 1)) ∧
    Left (trace (outAt 33) (transportSession 1 false [.delta .lzma])) 5 .lib := by decide +kernel

/-- A method that is called after `close` uses a stream that is not there. -/
theorem C117_call_after_close : ¬ Clean false (trace fine (pyLife 1 [.close, .call (.addFile 1)])) ∧
    ¬ Clean false (trace fine (pyLife 1 [.exit, .call (.updateHash 1)])) := by decide

/-- With an allocator of the application's own, and nothing failing, the wrong function releases memory: the key in `add` with a
key and in `verify`, and what the LZMA encoder and decoder hold. -/
theorem C118_wrong_function : ¬ Clean true (trace fine (session 1 [.addKey 1])) ∧
    ¬ Clean true (trace fine (session 1 [.verify 1])) ∧ ¬ Clean true (trace fine (session 1 [.verifyKeystore 1])) ∧
    ¬ Clean true (trace fine (transportSession 1 true [.delta .lzma])) ∧
    ¬ Clean true (trace fine (transportSession 1 false [.delta .lzma])) := by decide +kernel

/-! ## Cases that meet the hypotheses -/

theorem fine_enough : Enough fine := fun _ => rfl

theorem fail_enough (i : Nat) : Enough (failAt i) := fun _ => rfl

/-- Files are added, a key from a keystore verifies, and memory may run out. -/
example (l : Luck) : Tidy false (trace l (session 3 [.addFile 2, .sign 2, .verifyKeystore 1, .extract 4 true])) :=
  C116_session l 3 _ (by
    intro c hc
    simp only [List.mem_cons, List.not_mem_nil, or_false] at hc
    rintro ⟨n, h | h⟩ <;> rcases hc with rfl | rfl | rfl | rfl <;> cases h) (Or.inr (by
    intro c hc
    simp only [List.mem_cons, List.not_mem_nil, or_false] at hc
    rintro ⟨n, h | h | h⟩ <;> rcases hc with rfl | rfl | rfl | rfl <;> cases h))

/-- The run of this session without failures opens three streams and loads two keys. -/
example : (trace fine (session 3 [.addFile 2, .sign 2, .verifyKeystore 1, .extract 4 true])).length = 63 ∧
    Ev.got 1 .file ∈ trace fine (session 3 [.addFile 2, .sign 2, .verifyKeystore 1, .extract 4 true]) := by decide +kernel

/-- A suffix sort that recurses, and one whose third table cannot be had. -/
example : trace (failAt 7) (sais 2) = [.got 0 .lib, .used 0, .used 0, .got 1 .lib, .used 1, .used 1, .used 1, .gave 1 .lib,
      .used 0, .gave 0 .lib] ∧
    trace ⟨fun i => i != 5, fun i => i != 7⟩ (sais 1) = [.got 0 .lib, .used 0, .gave 0 .lib] := by decide +kernel

example : Tidy false (trace fine (transportSession 2 true [.copy, .delta .hs, .other])) :=
  C116_transport fine 2 true _ fine_enough (fun _ => by decide)

example : Tidy false (trace (failAt 40) (transportSession 2 false [.copy, .delta .lzma])) :=
  C116_transport _ 2 false _ (fail_enough 40) (fun h => nomatch h)

example : Clean false (trace fine (Cmd.keystore 2 1).run) := (C116_commands_partial fine (.keystore 2 1) fine_enough).1

/-- A signed package in a `with` block; the object is closed in the block as well. -/
example : Clean false (trace fine (pyLife 2 [.call (.addFile 1), .call (.sign 1), .close, .exit])) :=
  (C117_life_partial fine 2 [.addFile 1, .sign 1] [.close, .exit] fine_enough
    (by intro p hp; simpa using hp) (Or.inl (by decide))).1

/-- The file does not exist. -/
example : Clean false (trace (failAt 1) (pyLife 2 [])) :=
  (C117_life_partial (failAt 1) 2 [] [] (fail_enough 1) (by intro p hp; cases hp) (Or.inr (by decide))).1

/-- The header is not valid. -/
example (over : Bool) : ¬ Clean over (trace (failAt 4) (pyLife 2 [])) :=
  C117_failed_constructor _ over 2 [] (by decide) (by decide)

example (l : Luck) : Tidy true (trace l (session 3 [.addFile 2, .sign 2, .delete 1])) :=
  C118_session_partial l 3 _ (by
    intro c hc
    simp only [List.mem_cons, List.not_mem_nil, or_false] at hc
    rintro ⟨n, h | h | h⟩ <;> rcases hc with rfl | rfl | rfl <;> cases h) (Or.inr (by
    intro c hc
    simp only [List.mem_cons, List.not_mem_nil, or_false] at hc
    rintro ⟨n, h | h | h⟩ <;> rcases hc with rfl | rfl | rfl <;> cases h))

example : Tidy true (trace fine (transportSession 2 true [.copy, .delta .none])) :=
  C118_transport_partial fine 2 true _ fine_enough (by decide)

end Bpak
