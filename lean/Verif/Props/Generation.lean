import Verif.Props.Skip
/-
C78: the generation counter of gotcha_wrap has 32 bits.
-/
namespace Gotcha
open Spec

/-- gotcha_wrap of an empty table: the tool gets to be known and the generation moves on. -/
theorem step_empty {env : Env} {tool : Option Name} {s s' : State} {o} (hi : s.inited = true)
    (h : stepOp env (.wrap [] tool) s = .ok (s', o)) :
    s' = { s with tools := s'.tools, gen := s.gen + 1 } := by
  simp only [stepOp, gotchaWrap, gotchaInit, hi, if_true, bind, Except.bind, wrapBody, wrapCore,
    List.foldl_nil, addBindings, List.length_nil, List.range'_zero, processBindings] at h
  cases hx : s.tools.getOrCreate (tool.getD (nm "[UNSPECIFIED]")) with
  | error e => simp [hx] at h
  | ok x =>
    simp only [hx, Except.ok.injEq, Prod.mk.injEq] at h
    rw [← h.1, hi]

theorem run_empty {env : Env} : ∀ {mid : List Op} {s s' : State} {os},
    (∀ o ∈ mid, ∃ t, o = .wrap [] t) → s.inited = true → run env mid s = .ok (s', os) →
    s' = { s with tools := s'.tools, gen := s.gen + BitVec.ofNat 32 mid.length } := by
  intro mid
  induction mid with
  | nil =>
    intro s s' os _ _ h
    simp only [run, Except.ok.injEq, Prod.mk.injEq] at h
    rw [← h.1]
    simp
  | cons o mid ih =>
    intro s s' os hm hi h
    obtain ⟨t, rfl⟩ := hm _ (List.mem_cons_self ..)
    rw [run] at h
    obtain ⟨⟨s1, o1⟩, h1, h⟩ := ebind h
    obtain ⟨⟨s2, os2⟩, h2, h⟩ := ebind h
    cases h
    have e1 := step_empty hi h1
    have e2 := ih (fun o ho => hm o (List.mem_cons_of_mem _ ho)) (by rw [e1]; exact hi) h2
    rw [e1] at e2
    rw [e2]
    simp only [State.mk.injEq, true_and, and_true]
    rw [BitVec.add_assoc]
    congr 1
    rw [List.length_cons, BitVec.ofNat_add, BitVec.add_comm]
    rfl

/-- C78.  A gotcha_wrap has brought the libraries up to date; gotcha_wrap is then called for empty tables,
2^32 - 1 times (or any number that makes the 32-bit counter return), and then for a table `tbl2`.  That
last call writes nothing into any library that had been up to date, whatever functions it is for. -/
theorem C78_generation_wraps_refuted {p : Process} (ok : p.Ok) {pre mid : List Op}
    {tbl tbl2 : List UBinding} {tool tool2 : Option Name}
    (h : Events p False (pre ++ .wrap tbl tool :: (mid ++ [.wrap tbl2 tool2])))
    (hi : pre.any isApi = true) (hm : ¬ hasMain tbl) (hnew : NamesNew p pre tbl)
    (hmid : ∀ o ∈ mid, ∃ t, o = .wrap [] t) (hlen : (mid.length + 1) % 2 ^ 32 = 0)
    (hm2 : ¬ hasMain tbl2) {s1 os1 s os}
    (hr1 : run p.env (pre ++ [.wrap tbl tool]) p.start = .ok (s1, os1))
    (hr : run p.env (pre ++ .wrap tbl tool :: (mid ++ [.wrap tbl2 tool2])) p.start = .ok (s, os)) :
    ∀ a, (∀ l, p.U l → ∀ q ∈ rlOf l, a = l.addr + q.1 →
        Admitted (filterAfter pre) (libsAfter p.libs pre) l) →
      s.mem a = s1.mem a := by
  have e : pre ++ .wrap tbl tool :: (mid ++ [.wrap tbl2 tool2]) =
      ((pre ++ [.wrap tbl tool]) ++ mid) ++ [.wrap tbl2 tool2] := by simp
  rw [e] at h hr
  obtain ⟨s2, os2, o2, hr2, hs2, -⟩ := run_last hr
  obtain ⟨s0, os0, o, h1, h2, -⟩ := run_last hr1
  have hi1 : s1.inited = true := by
    rw [run_inited ok h.prefix.prefix hr1]; simp [hi]
  have hmidrun : ∃ os, run p.env mid s1 = .ok (s2, os) := by
    rw [run_append_model, hr1] at hr2
    obtain ⟨⟨s1', os1'⟩, h1', h3⟩ := ebind hr2
    cases h1'
    obtain ⟨⟨s2', os2'⟩, h2', h3⟩ := ebind h3
    cases h3
    exact ⟨_, h2'⟩
  obtain ⟨osm, hmr⟩ := hmidrun
  have hs := run_empty hmid hi1 hmr
  have hgen : s2.gen + 1 = s1.gen := by
    rw [hs]
    show s1.gen + BitVec.ofNat 32 mid.length + 1 = s1.gen
    have : BitVec.ofNat 32 mid.length + 1 = 0 := by
      apply BitVec.eq_of_toNat_eq
      rw [BitVec.toNat_add, BitVec.toNat_ofNat]
      show (mid.length % 2 ^ 32 + 1) % 2 ^ 32 = 0
      omega
    rw [BitVec.add_assoc, this]
    exact BitVec.add_zero _
  intro a ha
  have hmem : s2.mem a = s1.mem a := by rw [hs]
  rcases step_wrap_stale ok h.prefix hr2 (by simp [hi]) hs2 hm2 a with e | ⟨l, hU, hg, q, hq, e⟩
  · rw [e, hmem]
  · exfalso
    apply hg
    have hset := (step_wrap ok h.prefix.prefix.prefix h1 hi h2 hm).2 hnew l (ha l hU q hq e)
      (hasRel_of_mem hq)
    rw [hgen, ← hset, hs]
    rfl

/-! ### The process of Demo/World -/

namespace Demo

/-- Tool B wraps foo and goes on calling gotcha_wrap with nothing to wrap. -/
def genMid (n : Nat) : List Op := List.replicate n (.wrap [] (some B))

def genPre : List Op := [.getPriority B]
def genFoo : Op := .wrap [⟨nm "foo", 0x50a, 10⟩] (some B)
def genBar : Op := .wrap [⟨nm "__libc_start_main", 0x50b, 11⟩] (some B)

theorem loader_wraps {p : Process} {seen : Lib → Prop} {libs : List Lib} {ops : List Op} :
    (∀ o ∈ ops, ∃ tb t, o = Op.wrap tb t) → LoaderOk p False seen libs true ops := by
  induction ops with
  | nil => intro _; trivial
  | cons o ops ih =>
    intro h
    obtain ⟨tb, t, rfl⟩ := h _ (List.mem_cons_self ..)
    have := ih fun o ho => h o (List.mem_cons_of_mem _ ho)
    exact ⟨nofun, this⟩

theorem gen_events (n : Nat) : Events proc False (genPre ++ genFoo :: (genMid n ++ [genBar])) where
  loader := by
    refine ⟨fun _ => dlopen_def, loader_wraps ?_⟩
    intro o ho
    rcases List.mem_cons.1 ho with rfl | ho
    · exact ⟨_, _, rfl⟩
    rcases List.mem_append.1 ho with ho | ho
    · exact ⟨_, _, List.eq_of_mem_replicate ho⟩
    · rw [List.mem_singleton.1 ho]; exact ⟨_, _, rfl⟩
  cons := False.elim
  filter := False.elim
  main := False.elim
  short := False.elim

/-- Wrapping nothing for a tool that is known: the counter moves. -/
theorem run_replicate {env : Env} {t : Name} {s : State} {i : Nat} (hi : s.inited = true)
    (ht : s.tools.getOrCreate t = .ok (s.tools, i)) : ∀ n (g : BitVec 32),
    run env (List.replicate n (.wrap [] (some t))) { s with gen := g } =
      .ok ({ s with gen := g + BitVec.ofNat 32 n }, List.replicate n (.ret .success)) := by
  intro n
  induction n with
  | zero => intro g; simp [run]
  | succ n ih =>
    intro g
    have h1 : stepOp env (.wrap [] (some t)) { s with gen := g } =
        .ok ({ s with gen := g + 1 }, .ret .success) := by
      simp only [stepOp, gotchaWrap, gotchaInit, hi, if_true, bind, Except.bind, wrapBody, wrapCore,
        List.foldl_nil, addBindings, List.length_nil, List.range'_zero, processBindings,
        Option.getD_some, ht]
      rfl
    rw [List.replicate_succ, run, h1]
    show (run env _ _ >>= _) = _
    rw [ih]
    simp only [bind, Except.bind, List.replicate_succ]
    rw [BitVec.add_assoc]
    congr 4
    rw [BitVec.ofNat_add, BitVec.add_comm]
    rfl

theorem gen_key : (match run env (genPre ++ [genFoo]) proc.start with
    | .ok (s1, _) =>
      s1.inited && decide (s1.tools.getOrCreate B = .ok (s1.tools, 1)) &&
      decide (s1.mem 0x10000018 = 0x50a) && decide (s1.mem 0x10000030 = 0) &&
      match stepOp env genBar { s1 with gen := s1.gen + 0xffffffff } with
      | .ok (_, o) => decide (o = .ret .success)
      | _ => false
    | _ => false) = true := by decide +kernel

end Demo

/-- After the counter has come back, wrapping __libc_start_main reports success and leaves the slot of
the application alone, while foo had been wrapped. -/
theorem Demo.generation_wraps {n : Nat} (hn : (n + 1) % 2 ^ 32 = 0) : ∃ s os, run Demo.env (Demo.genPre ++ Demo.genFoo :: (Demo.genMid n ++ [Demo.genBar]))
      Demo.proc.start = .ok (s, os) ∧ os.getLast? = some (.ret .success) ∧
    s.mem 0x10000018 = 0x50a ∧ s.mem 0x10000030 = 0 := by
  have hk := Demo.gen_key
  split at hk
  · rename_i s1 os1 h1
    simp only [Bool.and_eq_true, decide_eq_true_eq] at hk
    obtain ⟨⟨⟨⟨hi, ht⟩, hf⟩, hb⟩, hs⟩ := hk
    split at hs
    · rename_i s o h2
      have h3 := Demo.run_replicate (env := Demo.env) hi ht n s1.gen
      have hr : run Demo.env (Demo.genPre ++ Demo.genFoo :: (Demo.genMid n ++ [Demo.genBar]))
          Demo.proc.start = .ok (s, os1 ++ (List.replicate n (.ret .success) ++ [o])) := by
        have e : Demo.genPre ++ Demo.genFoo :: (Demo.genMid n ++ [Demo.genBar]) =
          (Demo.genPre ++ [Demo.genFoo]) ++ (Demo.genMid n ++ [Demo.genBar]) := rfl
        rw [e, run_append_model, h1]
        show (run Demo.env _ s1 >>= _) = _
        rw [run_append_model]
        show ((run Demo.env (List.replicate n (.wrap [] (some Demo.B)))
          { s1 with gen := s1.gen } >>= _) >>= _) = _
        rw [h3]
        simp only [bind, Except.bind, run]
        have h2' : stepOp Demo.env Demo.genBar
          { s1 with gen := s1.gen + BitVec.ofNat 32 n } = .ok (s, o) := by
          rw [← h2]
          congr 3
          apply BitVec.eq_of_toNat_eq
          rw [BitVec.toNat_ofNat]
          show n % 2 ^ 32 = 4294967295
          omega
        rw [h2']
      have hmem := C78_generation_wraps_refuted (p := Demo.proc) Demo.proc_ok (Demo.gen_events n) rfl
        (by rintro ⟨u, hu, e⟩; simp at hu; subst hu; exact absurd e (by decide +kernel))
        ⟨nm "foo", by simp, by decide +kernel⟩
        (fun o ho => ⟨_, List.eq_of_mem_replicate ho⟩)
        (by rw [Demo.genMid, List.length_replicate]; exact hn)
        (by rintro ⟨u, hu, e⟩; simp at hu; subst hu; exact absurd e (by decide +kernel)) h1 hr
      have hadm : ∀ a, a = 0x10000018 ∨ a = 0x10000030 → ∀ l, Demo.proc.U l → ∀ q ∈ rlOf l,
          a = l.addr + q.1 → Admitted (filterAfter Demo.genPre)
            (libsAfter Demo.proc.libs Demo.genPre) l := by
        rintro a ha l (rfl | rfl | rfl) q hq e
        · exact ⟨[], [Demo.libc], rfl, trivial⟩
        · rw [Demo.rl_libc] at hq; cases hq
        · rw [Demo.rl_plug, List.mem_singleton] at hq
          subst hq
          rcases ha with rfl | rfl <;> exact absurd e (by decide)
      refine ⟨s, _, hr, ?_, ?_, ?_⟩
      · simpa using hs
      · rw [hmem _ (hadm _ (Or.inl rfl)), hf]
      · rw [hmem _ (hadm _ (Or.inr rfl)), hb]
    · cases hs
  · cases hk

/-- The smallest such number. -/
example : ∃ s os, run Demo.env (Demo.genPre ++ Demo.genFoo :: (Demo.genMid (2 ^ 32 - 1) ++
      [Demo.genBar])) Demo.proc.start = .ok (s, os) ∧ os.getLast? = some (.ret .success) ∧
    s.mem 0x10000018 = 0x50a ∧ s.mem 0x10000030 = 0 :=
  Demo.generation_wraps (by omega)

end Gotcha
