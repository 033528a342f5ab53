import Verif.Proof.Log
import Verif.Demo.Facts
/-
C105: the full debug log (`GOTCHA_DEBUG=3`).  Printing changes nothing; the log is true; and a reader who knows what
the loader has done reconstructs from it every word of memory, every page protection and every wrappee pointer.
-/
namespace Gotcha
open Spec

/-- **C105** With all messages, every event of the interface does what it does without: the same state and result, or
the same fault. -/
theorem C105_silent (env : Env) (file : Option Name) (flags : BitVec 32) (op : Op) (s : State) :
    Lo.erase (Lo.stepOp env file flags op s) = stepOp env op s ∧
    ∀ real h f who, Lo.erase (Lo.dlsymWrapper env real h f who s) = dlsymWrapper env real h f who s :=
  ⟨Lo.erase_stepOp env file flags op s, fun real h f who => Lo.erase_same_lift (Lo.same_dlsymWrapper env real h f who s)⟩

/-- **C105** The messages of level 1 in the full log are those that C81 describes. -/
theorem C105_level_one (env : Env) (s : State) :
    (∀ tbl tool lg r, Lo.gotchaWrap env tbl tool s = .ok (lg, r) → Lg.gotchaWrap env tbl tool s = .ok (ones lg, r)) ∧
    (∀ tool v lg s', Lo.gotchaSetPriority env tool v s = .ok (lg, s') →
      Lg.gotchaSetPriority env tool v s = .ok (ones lg, s')) ∧
    (∀ file flags ld lg s', Lo.dlopenWrapper env file flags ld s = .ok (lg, s') →
      Lg.dlopenWrapper env file flags ld s = .ok (ones lg, s')) :=
  ⟨fun tbl tool _ _ h => Lo.same_ok (Lo.same_gotchaWrap env tbl tool s) h,
    fun tool v _ _ h => Lo.same_ok (Lo.same_gotchaSetPriority env tool v s) h,
    fun file flags ld _ _ h => Lo.same_ok (Lo.same_dlopenWrapper env file flags ld s) h⟩

/-- **C105** The log of an event is true, and going through it turns what the reader knew (and what the loader did)
into what is. -/
theorem C105_record {env : Env} {file : Option Name} {flags : BitVec 32} {op : Op} {s s' : State} {o : Obs}
    {lg : List Note} (h : Lo.stepOp env file flags op s = .ok (lg, (s', o))) :
    replay lg (mirror (given op s)) = mirror s' ∧ Truthful env (given op s).linkMap (given op s).filter lg := by
  have := Lo.tells_stepOp env file flags op s _ _ h
  exact ⟨this.rep, this.told⟩

/-- **C105** The same for the intercepted dlsym. -/
theorem C105_dlsym {env : Env} {real : RealDl} {h : DlHandle} {f : Name} {who : Addr} {s s' : State} {v : Addr}
    {lg : List Note} (hd : Lo.dlsymWrapper env real h f who s = .ok (lg, (s', v))) :
    replay lg (mirror s) = mirror s' ∧ Truthful env s.linkMap s.filter lg := by
  have := Lo.tells_dlsymWrapper env real h f who s _ _ hd
  exact ⟨this.rep, this.told⟩

/-- The loader's part, seen from the mirror. -/
theorem mirror_given (op : Op) (s : State) : mirror (given op s) = (mirror s).given op := by
  cases op <;> rfl

/-- **C105** A whole history: from the memory at the start, the loader's doings and the logs, the reader has the memory,
the protections and the pointers at the end. -/
theorem C105_history (env : Env) (args : Nat → Option Name × BitVec 32) : ∀ (ops : List Op) (s s' : State)
    (lgs : List (List Note)), Lo.run env args ops s = .ok (s', lgs) →
    readAll (ops.zip lgs) (mirror s) = mirror s' ∧ lgs.length = ops.length ∧ ∃ os, run env ops s = .ok (s', os)
  | [], s, s', lgs, h => by cases h; exact ⟨rfl, rfl, [], rfl⟩
  | op :: ops, s, s', lgs, h => by
    unfold Lo.run at h
    cases h1 : Lo.stepOp env (args ops.length).1 (args ops.length).2 op s with
    | error f => rw [h1] at h; cases h
    | ok x =>
      obtain ⟨lg, s1, o⟩ := x
      rw [h1] at h
      dsimp only at h
      cases h2 : Lo.run env args ops s1 with
      | error f => rw [h2] at h; cases h
      | ok y =>
        obtain ⟨s2, lgs'⟩ := y
        rw [h2] at h
        cases h
        obtain ⟨i1, i2, os, i3⟩ := C105_history env args ops s1 s' lgs' h2
        have hs := Lo.erase_stepOp env (args ops.length).1 (args ops.length).2 op s
        rw [h1] at hs
        refine ⟨?_, by simp [i2], o :: os, ?_⟩
        · show readAll (ops.zip lgs') (replay lg ((mirror s).given op)) = mirror s'
          rw [← mirror_given, (C105_record h1).1, i1]
        · show (stepOp env op s >>= fun x => run env ops x.1 >>= fun y => Except.ok (y.1, x.2 :: y.2)) = _
          rw [← hs]
          show (run env ops s1 >>= fun y => Except.ok (y.1, o :: y.2)) = _
          rw [i3]
          rfl

/-- **C105** Every history that runs has a log. -/
theorem C105_history_total (env : Env) (args : Nat → Option Name × BitVec 32) : ∀ (ops : List Op) (s s' : State) (os),
    run env ops s = .ok (s', os) → ∃ lgs, Lo.run env args ops s = .ok (s', lgs)
  | [], s, s', os, h => by cases h; exact ⟨[], rfl⟩
  | op :: ops, s, s', os, h => by
    have h' : (stepOp env op s >>= fun x => run env ops x.1 >>= fun y => Except.ok (y.1, x.2 :: y.2)) = .ok (s', os) := h
    rw [← Lo.erase_stepOp env (args ops.length).1 (args ops.length).2 op s] at h'
    unfold Lo.run
    cases h1 : Lo.stepOp env (args ops.length).1 (args ops.length).2 op s with
    | error f => rw [h1] at h'; cases h'
    | ok x =>
      obtain ⟨lg, s1, o⟩ := x
      rw [h1] at h'
      replace h' : (run env ops s1 >>= fun y => Except.ok (y.1, o :: y.2)) = .ok (s', os) := h'
      cases h2 : run env ops s1 with
      | error f => rw [h2] at h'; cases h'
      | ok y =>
        obtain ⟨s2, os2⟩ := y
        rw [h2] at h'
        cases h'
        obtain ⟨lgs, i⟩ := C105_history_total env args ops s1 _ _ h2
        exact ⟨lg :: lgs, by dsimp only; rw [i]⟩

theorem replay_induct {motive : List Note → Mirror → Prop} (nil : ∀ m, motive [] m)
    (skip : ∀ k n r k' ns m, motive ns m → motive (.mark k n r :: .markFailed k' :: ns) m)
    (step : ∀ n ns m, replay (n :: ns) m = replay ns (heed m n) → motive ns (heed m n) → motive (n :: ns) m) :
    ∀ ns m, motive ns m
  | [], m => nil m
  | [n], m => step n [] m (by cases n <;> rfl) (nil _)
  | .mark k l r :: .markFailed k' :: ns, m => skip k l r k' ns m (replay_induct nil skip step ns m)
  | n :: n' :: ns, m => by
    by_cases h : ∃ k l r k', n = .mark k l r ∧ n' = .markFailed k'
    · obtain ⟨k, l, r, k', rfl, rfl⟩ := h
      exact skip k l r k' ns m (replay_induct nil skip step ns m)
    · refine step n (n' :: ns) m ?_ (replay_induct nil skip step (n' :: ns) _)
      cases n with
      | mark k l r =>
        cases n' with
        | markFailed k' => exact (h ⟨k, l, r, k', rfl, rfl⟩).elim
        | _ => rfl
      | _ => rfl

theorem replay_mem (a : Addr) (ns : List Note) (m : Mirror) : (replay ns m).mem a = m.mem a ∨
    ∃ f n, .remap f a n ((replay ns m).mem a) ∈ ns := by
  refine replay_induct (motive := fun ns m => (replay ns m).mem a = m.mem a ∨
    ∃ f n, .remap f a n ((replay ns m).mem a) ∈ ns) (fun m => .inl rfl) ?_ ?_ ns m
  · intro k n r k' ns m ih
    rcases ih with h | ⟨f, x, h⟩
    · exact .inl h
    · exact .inr ⟨f, x, List.mem_cons_of_mem _ (List.mem_cons_of_mem _ h)⟩
  · intro n ns m e ih
    rw [e]
    rcases ih with h | ⟨f, x, h⟩
    · rw [h]
      cases n with
      | remap f a' l w =>
        show (if a = a' then w else m.mem a) = m.mem a ∨ _
        by_cases ha : a = a'
        · subst ha
          refine .inr ⟨f, l, ?_⟩
          have : (heed m (.remap f a l w)).mem a = w := if_pos rfl
          rw [this]
          exact List.mem_cons_self
        · exact .inl (if_neg ha)
      | _ => exact .inl rfl
    · exact .inr ⟨f, x, List.mem_cons_of_mem _ h⟩

theorem replay_ptr (b : BId) (ns : List Note) (m : Mirror) : (replay ns m).ptr b = m.ptr b ∨
    .point b ((replay ns m).ptr b) ∈ ns := by
  refine replay_induct (motive := fun ns m => (replay ns m).ptr b = m.ptr b ∨
    .point b ((replay ns m).ptr b) ∈ ns) (fun m => .inl rfl) ?_ ?_ ns m
  · intro k n r k' ns m ih
    rcases ih with h | h
    · exact .inl h
    · exact .inr (List.mem_cons_of_mem _ (List.mem_cons_of_mem _ h))
  · intro n ns m e ih
    rw [e]
    rcases ih with h | h
    · rw [h]
      cases n with
      | point b' v =>
        show (if b = b' then v else m.ptr b) = m.ptr b ∨ _
        by_cases ha : b = b'
        · subst ha
          refine .inr ?_
          have : (heed m (.point b v)).ptr b = v := if_pos rfl
          rw [this]
          exact List.mem_cons_self
        · exact .inl (if_neg ha)
      | _ => exact .inl rfl
    · exact .inr (List.mem_cons_of_mem _ h)

theorem told_mem {env lm f ns} (h : Truthful env lm f ns) {n : Note} (hn : n ∈ ns)
    (hm : ∀ k l r, n ≠ .mark k l r) (hm' : ∀ k, n ≠ .markFailed k) : Holds env lm f n := by
  induction h with
  | nil => cases hn
  | cons hp _ ih =>
    rcases List.mem_append.mp hn with h | h
    · cases hp with
      | single hh => rw [List.mem_singleton.mp h]; exact hh
      | refused =>
        simp only [List.mem_cons, List.not_mem_nil, or_false] at h
        rcases h with rfl | rfl
        · exact (hm _ _ _ rfl).elim
        · exact (hm' _ rfl).elim
    · exact ih h

/-- **C105** A word of memory that an event changes (beyond what the loader does) is named in the log: with the function,
the library and the new value, and it is a GOT entry of that function in a loaded library that the filter admits. -/
theorem C105_changed_word {env : Env} {file : Option Name} {flags : BitVec 32} {op : Op} {s s' : State} {o : Obs}
    {lg : List Note} (h : Lo.stepOp env file flags op s = .ok (lg, (s', o))) (a : Addr)
    (hc : s'.mem a ≠ (given op s).mem a) :
    ∃ f n, .remap f a n (s'.mem a) ∈ lg ∧ ∃ l ∈ (given op s).linkMap, libName l.name = n ∧
      (∃ hn, (given op s).filter.accepts l hn = .ok true) ∧
      ∃ rl off, Elf.relocs l.img = .ok (some rl) ∧ (off, f) ∈ rl ∧ a = l.addr + off := by
  obtain ⟨h1, h2⟩ := C105_record h
  have e : (replay lg (mirror (given op s))).mem a = s'.mem a := by rw [h1]; rfl
  rcases replay_mem a lg (mirror (given op s)) with h3 | ⟨f, n, h3⟩
  · exact (hc (e.symm.trans h3)).elim
  · rw [e] at h3
    exact ⟨f, n, h3, told_mem h2 h3 (fun _ _ _ h => by cases h) (fun _ h => by cases h)⟩

/-- **C105** A wrappee pointer that an event changes is named in the log with its new value. -/
theorem C105_changed_pointer {env : Env} {file : Option Name} {flags : BitVec 32} {op : Op} {s s' : State} {o : Obs}
    {lg : List Note} (h : Lo.stepOp env file flags op s = .ok (lg, (s', o))) (b : BId)
    (hc : (mirror s').ptr b ≠ (mirror s).ptr b) : .point b ((mirror s').ptr b) ∈ lg := by
  obtain ⟨h1, -⟩ := C105_record h
  rcases replay_ptr b lg (mirror (given op s)) with h3 | h3
  · rw [h1] at h3
    refine (hc (h3.trans ?_)).elim
    cases op <;> rfl
  · rw [h1] at h3
    exact h3

/-- **C105** "Symbol … was found in … at …" is true, and so is "not found in". -/
theorem C105_lookups {env : Env} {file : Option Name} {flags : BitVec 32} {op : Op} {s s' : State} {o : Obs}
    {lg : List Note} (h : Lo.stepOp env file flags op s = .ok (lg, (s', o))) (f n : Name) :
    (∀ a, .found f n a ∈ lg → ∃ l ∈ (given op s).linkMap, libName l.name = n ∧
      Elf.exported l.img l.addr f = .ok (some a)) ∧
    (.notIn f n ∈ lg → ∃ l ∈ (given op s).linkMap, libName l.name = n ∧
      Elf.exported l.img l.addr f = .ok none) := by
  obtain ⟨-, h2⟩ := C105_record h
  exact ⟨fun a ha => told_mem h2 ha (fun _ _ _ h => by cases h) (fun _ h => by cases h),
    fun ha => told_mem h2 ha (fun _ _ _ h => by cases h) (fun _ h => by cases h)⟩

namespace Ex105
open Demo

/-- The demo: a priority, foo and bar wrapped by one tool, foo wrapped by another tool, and a dlopen; with all messages
and the argument "libp.so" printed for the dlopen. -/
def logs : List (List Note) :=
  match Lo.run proc.env (fun _ => (some (nm "libp.so"), 1)) (ops.take 4) proc.start with
  | .ok (_, lgs) => lgs
  | .error _ => []

/-- The second registration of foo, message by message: it is put at the head, its pointer leads to the first tool's
wrapper, and the slot of the application is rewritten. -/
theorem third : (logs.drop 2).take 1 = [[
    .one (.wrapCalled (some A) 1), .willMap 0 (nm "foo") 0x50c, .initNull 1, .clear 12, .generation 3, .creating,
    .tableFor 1 A, .processing 1, .rewrite (nm "foo") A 10, .toHead 10 (-1), .point 4 (some 0x50a),
    .needsBinding (nm "foo"), .callSites 1, .remap (nm "foo") 0x10000018 (nm "/bin/app") 0x50c, .one .wrapDone]] := by
  decide +kernel

/-- The dlopen: bar is found in the plugin, and the plugin's slots are rewritten. -/
example : (logs.drop 3).all (fun lg =>
    .found (nm "bar") (nm "/lib/plugin.so") 0x30004000 ∈ lg ∧ .point 3 (some 0x30004000) ∈ lg ∧
    .remap (nm "foo") 0x30000018 (nm "/lib/plugin.so") 0x50c ∈ lg) = true ∧ logs.length = 4 := by decide +kernel

/-- The hypotheses of the theorems about one event hold for the third event of the demo, which changes a word and a
pointer. -/
example : (match run proc.env (ops.take 2) proc.start with
    | .ok (s, _) => (match ops.drop 2 with
      | op :: _ => (match Lo.stepOp proc.env none 0 op s with
        | .ok (lg, (s', _)) => lg.length == 15 && s.mem 0x10000018 == 0x50a && s'.mem 0x10000018 == 0x50c &&
          (mirror s).ptr 4 == none && (mirror s').ptr 4 == some 0x50a
        | .error _ => false)
      | [] => false)
    | .error _ => false) = true := by decide +kernel

/-- Refused changes of protection (for pages that are writable already): announced, reported, and not counted by the
reader; the rest of the log is as before. -/
example : (match Lo.run { proc.env with mprotect := fun _ => false } (fun _ => (none, 0)) (ops.take 2)
      { proc.start with wr := fun _ => true } with
    | .ok (s', [lg, lg']) => decide (.markFailed .pltOnly ∈ lg) && s'.mem 0x10000018 == 0x50a &&
      (replay (lg ++ lg') (mirror { proc.start with wr := fun _ => true })).mem 0x10000018 == 0x50a
    | _ => false) = true := by decide +kernel

/-- Not vacuous: dlsym of a wrapped function, with RTLD_NEXT, after three events. -/
example : ∃ s os lg s' v, run proc.env (ops.take 3) proc.start = .ok (s, os) ∧
    Lo.dlsymWrapper proc.env ⟨fun _ _ => 0x20004000, fun _ => .other 0⟩ .next (nm "foo") 0x10000100 s = .ok (lg, (s', v)) ∧
    lg ≠ [] ∧ Truthful proc.env s.linkMap s.filter lg := by
  have hq : (match run proc.env (ops.take 3) proc.start with
      | .ok (s, _) => (match Lo.dlsymWrapper proc.env ⟨fun _ _ => 0x20004000, fun _ => .other 0⟩ .next (nm "foo") 0x10000100 s with
        | .ok (lg, _) => !lg.isEmpty
        | .error _ => false)
      | .error _ => false) = true := by decide +kernel
  split at hq
  · rename_i s os e
    split at hq
    · rename_i lg x e'
      refine ⟨s, os, lg, x.1, x.2, e, e', ?_, (C105_dlsym e').2⟩
      simpa using hq
    · cases hq
  · cases hq

end Ex105
end Gotcha
