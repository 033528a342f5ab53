import Verif.Proof.Calls
import Verif.Demo.Facts
/-
C73, C74: wrapping main with a tool of high priority, and in a program that does not export main.
-/
namespace Gotcha
open Spec

/-- Where an element stands in a list sorted by non-increasing rank, if it is the first of its rank. -/
theorem sorted_split {α : Type} (q : α → Int) {L M K : List α} {x : α}
    (hs : L.Pairwise (fun a b => q b ≤ q a)) (hp : L.Perm (x :: M))
    (hf : L.filter (fun a => decide (q a = q x)) = x :: K) :
    ∃ pre rest, L = pre ++ x :: rest ∧ (∀ y ∈ pre, q x < q y) ∧
      rest.Perm (M.filter (fun y => decide (q y ≤ q x))) := by
  have hx : x ∈ L := hp.mem_iff.2 (by simp)
  have hpre : ∀ y ∈ L.takeWhile (fun y => decide (q x < q y)), q x < q y := by
    intro y hy
    have : ∀ (L : List α), y ∈ L.takeWhile (fun y => decide (q x < q y)) → q x < q y := by
      intro L
      induction L with
      | nil => intro h; cases h
      | cons a L ih =>
        rw [List.takeWhile_cons]
        split
        · next hc =>
          intro h
          rcases List.mem_cons.1 h with rfl | h
          · simpa using hc
          · exact ih h
        · intro h; cases h
    exact this L hy
  have hsplit := List.takeWhile_append_dropWhile (p := fun y => decide (q x < q y)) (l := L)
  generalize hP : L.takeWhile (fun y => decide (q x < q y)) = pre at hpre hsplit
  have hD : ∀ y ys, L.dropWhile (fun y => decide (q x < q y)) = y :: ys → ¬ q x < q y := by
    intro y ys e
    have := List.head?_dropWhile_not (fun y => decide (q x < q y)) L
    rw [e] at this
    simpa using this
  generalize L.dropWhile (fun y => decide (q x < q y)) = D at hsplit hD
  have hxD : x ∈ D := by
    rw [← hsplit] at hx
    rcases List.mem_append.1 hx with h | h
    · have := hpre x h; omega
    · exact h
  cases D with
  | nil => cases hxD
  | cons y rest =>
    have h1 := hD y rest rfl
    have hs2 : (y :: rest).Pairwise (fun a b => q b ≤ q a) := by
      rw [← hsplit] at hs
      exact (List.pairwise_append.1 hs).2.1
    have hyr := (List.pairwise_cons.1 hs2).1
    have hq : q y = q x := by
      rcases List.mem_cons.1 hxD with rfl | h
      · rfl
      · have := hyr x h; omega
    have hyx : y = x := by
      rw [← hsplit, List.filter_append] at hf
      have : pre.filter (fun a => decide (q a = q x)) = [] := by
        rw [List.filter_eq_nil_iff]
        intro a ha
        have := hpre a ha
        simp
        omega
      rw [this, List.nil_append, List.filter_cons, if_pos (by simpa using hq)] at hf
      exact (List.cons.inj hf).1
    subst hyx
    refine ⟨pre, rest, hsplit.symm, hpre, ?_⟩
    have h2 := hp.filter (fun a => decide (q a ≤ q y))
    have h3 : L.filter (fun a => decide (q a ≤ q y)) = y :: rest := by
      rw [← hsplit, List.filter_append]
      have e1 : pre.filter (fun a => decide (q a ≤ q y)) = [] := by
        rw [List.filter_eq_nil_iff]
        intro a ha
        have := hpre a ha
        simp
        omega
      have e2 : (y :: rest).filter (fun a => decide (q a ≤ q y)) = y :: rest := by
        rw [List.filter_eq_self]
        intro a ha
        rcases List.mem_cons.1 ha with rfl | h
        · simp
        · simpa using hyr a h
      rw [e1, e2, List.nil_append]
    rw [h3, List.filter_cons, if_pos (by simp)] at h2
    exact h2.cons_inv

/-- GOTCHA's own wrapper of main, and of `__libc_start_main`. -/
def ownMain (env : Env) : Frame := frame (nm "gotcha") ⟨nm "main", env.mainW, env.hMain⟩

theorem hasMain_of_frames {ops : List Op} (h : clientFrames ops (nm "main") ≠ []) :
    ∃ o ∈ ops, hasMain (tableOf o) := by
  obtain ⟨fr, hfr⟩ := List.exists_mem_of_ne_nil _ h
  obtain ⟨o, ho, hx⟩ := List.mem_flatMap.1 hfr
  cases o with
  | wrap tbl tool =>
    obtain ⟨u, hu, -⟩ := List.mem_map.1 hx
    obtain ⟨hu, hn⟩ := List.mem_filter.1 hu
    exact ⟨_, ho, u, hu, by simpa using hn⟩
  | _ => cases hx

theorem registered_main_of {env : Env} {ops : List Op} (h : clientFrames ops (nm "main") ≠ []) :
    registered env ops (nm "main") = ownMain env :: clientFrames ops (nm "main") := by
  rw [registered_main, if_pos (hasMain_of_frames h)]; rfl

/-- C73.  Which wrappers of main run when the program starts: exactly those of the tools whose
priority is not above GOTCHA's own (-1 by default).  The wrappers of tools of a higher priority are
skipped. -/
theorem C73_start_skips_high_priority {p : Process} (ok : p.Ok) {strict : Prop} {ops : List Op}
    (h : History p strict ops) (hset : Settled ops) {s os}
    (hr : run p.env ops p.start = .ok (s, os))
    (hmain : clientFrames ops (nm "main") ≠ [])
    {r : Addr} (hreal : realAfter p.env p.libs ops (nm "main") = some r) (hprog : p.P r = none) :
    ∃ order, order.Perm ((clientFrames ops (nm "main")).filter
        (fun fr => decide (prioOr fr.tool ops ≤ prioOr (nm "gotcha") ops))) ∧
      ∃ a, libcStartMainArg p.env s = .ok a ∧
        (∀ path, Calls p.P s a path ↔ path = wrappers order ++ [r]) ∧
        ∀ fr ∈ clientFrames ops (nm "main"), prioOr (nm "gotcha") ops < prioOr fr.tool ops →
          fr.wrapper ∉ wrappers order ++ [r] := by
  obtain ⟨hv, -, -⟩ := history_view ok h hr
  have hreg := registered_main_of (env := p.env) hmain
  have hperm := stackOf_perm p ops (nm "main")
  rw [hreg] at hperm
  obtain ⟨pre, rest, hst, hpre, hrest⟩ := sorted_split (fun a : Frame => prioOr a.tool ops)
    (stackOf_sorted p hset (nm "main")) hperm
    (K := (clientFrames ops (nm "main")).filter
      (fun a => decide (prioOr a.tool ops = prioOr (ownMain p.env).tool ops))) (by
      have := stackOf_stable p hset (nm "main") (prioOr (ownMain p.env).tool ops)
      rw [hreg, List.filter_cons, if_pos (by simp)] at this
      exact this)
  have hc := view_calls hv (by rw [real_run]; exact hreal) hprog (ownMain p.env :: rest) pre hst
    _ _ rfl
  have hPs : ∀ fr ∈ stackOf p ops (nm "main"), p.P fr.wrapper = some fr.handle :=
    fun fr hfr => hv.prog (nm "main") fr hfr
  have hPo : p.P (ownMain p.env).wrapper = some (ownMain p.env).handle := hPs _ (by rw [hst]; simp)
  obtain ⟨a, path, e, h2, h3⟩ := hc.inv hPo
  cases e
  refine ⟨rest, hrest, a, h2, fun path => ⟨fun h4 => h4.det h3, fun e => e ▸ h3⟩, ?_⟩
  intro fr hfr hlt hmem
  have hfs : fr ∈ stackOf p ops (nm "main") := hperm.mem_iff.2 (List.mem_cons_of_mem _ hfr)
  have hPf := hPs fr hfs
  rcases List.mem_append.1 hmem with hm | hm
  · obtain ⟨g, hg, hw⟩ := List.mem_map.1 hm
    have hPg := hPs g (by rw [hst]; simp [hg])
    have hgp : prioOr g.tool ops ≤ prioOr (nm "gotcha") ops := by
      have := (List.mem_filter.1 (hrest.mem_iff.1 hg)).2
      exact of_decide_eq_true this
    -- the same wrapper reads the same handle, and a handle belongs to one binding
    rw [← hw, hPg] at hPf
    obtain ⟨i, hi⟩ := List.getElem?_of_mem hfs
    have hgs : g ∈ stackOf p ops (nm "main") := by rw [hst]; simp [hg]
    obtain ⟨j, hj⟩ := List.getElem?_of_mem hgs
    have := (hv.uniq (nm "main") (nm "main") j i g fr hj hi (Option.some.inj hPf)).2
    subst this
    rw [hi] at hj
    cases hj
    omega
  · rw [List.mem_singleton] at hm
    rw [hm, hprog] at hPf
    cases hPf

/-- C73.  In particular, if every tool that wraps main has a priority above GOTCHA's, the program starts
with its own main, and no wrapper runs. -/
theorem C73_all_skipped {p : Process} (ok : p.Ok) {strict : Prop} {ops : List Op}
    (h : History p strict ops) (hset : Settled ops) {s os}
    (hr : run p.env ops p.start = .ok (s, os))
    (hmain : clientFrames ops (nm "main") ≠ [])
    (hprio : ∀ fr ∈ clientFrames ops (nm "main"), prioOr (nm "gotcha") ops < prioOr fr.tool ops)
    {r : Addr} (hreal : realAfter p.env p.libs ops (nm "main") = some r) (hprog : p.P r = none) :
    libcStartMainArg p.env s = .ok r := by
  obtain ⟨order, h1, a, h2, h3, -⟩ := C73_start_skips_high_priority ok h hset hr hmain hreal hprog
  have : (clientFrames ops (nm "main")).filter
      (fun fr => decide (prioOr fr.tool ops ≤ prioOr (nm "gotcha") ops)) = [] := by
    rw [List.filter_eq_nil_iff]
    intro fr hfr
    have := hprio fr hfr
    simp
    omega
  rw [this] at h1
  rw [List.Perm.eq_nil h1] at h3
  have hc : Calls p.P s a [r] := (h3 _).2 rfl
  cases hc with
  | stop _ => exact h2
  | cont _ _ hc => cases hc

theorem expand_start (env : Env) (tool : Name) : ∀ (us : List UBinding), hasMain us →
    ∀ v ∈ libcMainTable env ++ mainTable env, (nm "gotcha", v) ∈ expand env tool false us
  | [], h, _, _ => by obtain ⟨u, hu, -⟩ := h; cases hu
  | u :: us, h, v, hv => by
    rw [expand]
    by_cases hu : u.name = nm "main"
    · rw [if_pos ⟨hu, rfl⟩]
      exact List.mem_append_left _ (List.mem_map.2 ⟨v, hv, rfl⟩)
    · rw [if_neg (fun h => hu h.1)]
      refine List.mem_append_right _ (List.mem_cons_of_mem _ ?_)
      rw [decide_eq_false hu, Bool.or_false]
      refine expand_start env tool us ?_ v hv
      obtain ⟨w, hw, e⟩ := h
      rcases List.mem_cons.1 hw with rfl | hw
      · exact absurd e hu
      · exact ⟨w, hw, e⟩

theorem regs_start (env : Env) : ∀ (ops : List Op) (ini : Bool), (∃ o ∈ ops, hasMain (tableOf o)) →
    ∀ v ∈ libcMainTable env ++ mainTable env, (nm "gotcha", v) ∈ regs env ini false ops
  | [], _, h, _, _ => by obtain ⟨o, ho, -⟩ := h; cases ho
  | op :: ops, ini, h, v, hv => by
    rw [regs]
    by_cases hm : hasMain (tableOf op)
    · refine List.mem_append_left _ ?_
      cases op with
      | wrap tbl tool => exact List.mem_append_right _ (expand_start env _ tbl hm v hv)
      | _ => obtain ⟨u, hu, -⟩ := hm; cases hu
    · have : (tableOf op).any (fun u => decide (u.name = nm "main")) = false := by
        rw [Bool.eq_false_iff]; intro hc; exact hm ((hasMain_any _).1 hc)
      rw [this, Bool.or_false]
      refine List.mem_append_right _ (regs_start env ops _ ?_ v hv)
      obtain ⟨o, ho, h⟩ := h
      rcases List.mem_cons.1 ho with rfl | ho
      · exact absurd h hm
      · exact ⟨o, ho, h⟩

/-- From a wrapper of a resolved function on, the calls end in that function. -/
theorem inward {p : Process} (ok : p.Ok) {strict : Prop} {ops : List Op}
    (h : History p strict ops) {s os} (hr : run p.env ops p.start = .ok (s, os)) {f : Name}
    {fr : Frame} (hfr : fr ∈ registered p.env ops f) {r : Addr}
    (hreal : realAfter p.env p.libs ops f = some r) (hprog : p.P r = none) :
    ∃ a inner, s.getWrappee fr.handle = .ok a ∧ Calls p.P s a (wrappers inner ++ [r]) ∧
      ∀ g ∈ inner, g ∈ registered p.env ops f ∧ g.handle ≠ fr.handle := by
  obtain ⟨hv, -, -⟩ := history_view ok h hr
  have hperm := stackOf_perm p ops f
  have hmem := hperm.mem_iff.2 hfr
  obtain ⟨pre, rest, hst⟩ := List.append_of_mem hmem
  have hc := view_calls hv (by rw [real_run]; exact hreal) hprog (fr :: rest) pre hst _ _ rfl
  obtain ⟨a, path, e, h2, h3⟩ := hc.inv (hv.prog f fr hmem)
  cases e
  refine ⟨a, rest, h2, h3, fun g hg => ⟨hperm.mem_iff.1 (by rw [hst]; simp [hg]), fun e => ?_⟩⟩
  obtain ⟨j, hj⟩ := List.getElem?_of_mem hg
  have h4 : (stackOf p ops f)[pre.length]? = some fr := by rw [hst]; simp
  have h5 : (stackOf p ops f)[pre.length + (j + 1)]? = some g := by
    rw [hst, List.getElem?_append_right (by omega)]
    simpa using hj
  have := (hv.uniq f f _ _ g fr h5 h4 e).2
  omega

/-- C73.  The intercepted `__libc_start_main` passes its other arguments on unchanged, together with the
main of `C73_start_skips_high_priority`, to a function that leads to the real one; the main function it
is given itself is ignored. -/
theorem C73_start_call {p : Process} (ok : p.Ok) {strict : Prop} {ops : List Op}
    (h : History p strict ops) {s os} (hr : run p.env ops p.start = .ok (s, os))
    (hmain : clientFrames ops (nm "main") ≠ [])
    {r q : Addr} (hreal : realAfter p.env p.libs ops (nm "main") = some r) (hprog : p.P r = none)
    (hreal' : realAfter p.env p.libs ops (nm "__libc_start_main") = some q) (hprog' : p.P q = none)
    {α : Type} (args : α) :
    ∃ f m, (∀ mainArg, libcStartMain p.env s mainArg args = .ok (f, m, args)) ∧
      internalMain p.env s args = .ok (m, args) ∧ libcStartMainArg p.env s = .ok m ∧
      (∃ path, Calls p.P s f (path ++ [q])) ∧ ∃ path, Calls p.P s m (path ++ [r]) := by
  have hex := hasMain_of_frames hmain
  have hin : ∀ v ∈ libcMainTable p.env ++ mainTable p.env,
      frame (nm "gotcha") v ∈ registered p.env ops v.name := by
    intro v hv
    have := regs_start p.env ops false hex v hv
    exact List.mem_map.2 ⟨_, List.mem_filter.2 ⟨this, by simp⟩, rfl⟩
  have h1 := hin ⟨nm "__libc_start_main", p.env.libcMainW, p.env.hLibcMain⟩
    (by simp [libcMainTable])
  have h2 := hin ⟨nm "main", p.env.mainW, p.env.hMain⟩ (by simp [mainTable])
  obtain ⟨f, i1, g1, g2, -⟩ := inward ok h hr h1 hreal' hprog'
  obtain ⟨m, i2, k1, k2, -⟩ := inward ok h hr h2 hreal hprog
  have k1' : libcStartMainArg p.env s = .ok m := k1
  have g1' : s.getWrappee p.env.hLibcMain = .ok f := g1
  have k1'' : s.getWrappee p.env.hMain = .ok m := k1
  refine ⟨f, m, ?_, ?_, k1', ⟨_, g2⟩, ⟨_, k2⟩⟩
  · intro mainArg
    simp only [libcStartMain, g1', k1', bind, Except.bind]
  · simp only [internalMain, k1'', bind, Except.bind]

/-- C74.  A tool wraps main in a program that does not export it (programs do so only when linked
with -rdynamic or the like).  Then GOTCHA never finds main, and a start of the program through the
intercepted `__libc_start_main` gets nowhere: one of the handles is indeterminate, and no chain of calls
reaches a function that is not a wrapper; in particular not the main function passed by the start-up
code. -/
theorem C74_unexported_main_never_starts {p : Process} (ok : p.Ok) {strict : Prop} {ops : List Op}
    (h : History p strict ops) {s os} (hr : run p.env ops p.start = .ok (s, os))
    (hmain : clientFrames ops (nm "main") ≠ [])
    (hreal : realAfter p.env p.libs ops (nm "main") = none) :
    (∃ fr ∈ registered p.env ops (nm "main"), s.getWrappee fr.handle = .error .uninit) ∧
      ∀ a, libcStartMainArg p.env s = .ok a → ∀ path, ¬ Calls p.P s a path := by
  obtain ⟨hv, -, -⟩ := history_view ok h hr
  have hreg := registered_main_of (env := p.env) hmain
  have hperm := stackOf_perm p ops (nm "main")
  have hl := history_linked ok h hr (nm "main")
  rw [hreal] at hl
  have hmem : ownMain p.env ∈ stackOf p ops (nm "main") :=
    hperm.mem_iff.2 (by rw [hreg]; simp)
  -- a call of any wrapper of the stack gets nowhere
  have key : ∀ (k i : Nat) (fr : Frame), (stackOf p ops (nm "main"))[i]? = some fr →
      (stackOf p ops (nm "main")).length = i + k → ∀ path, ¬ Calls p.P s fr.wrapper path := by
    intro k
    induction k with
    | zero =>
      intro i fr hi hk
      rw [List.getElem?_eq_none (by omega)] at hi
      cases hi
    | succ k ih =>
      intro i fr hi hk path hc
      have hP := hv.prog (nm "main") fr (List.mem_of_getElem? hi)
      obtain ⟨a, path', -, h2, h3⟩ := hc.inv hP
      cases hj : (stackOf p ops (nm "main"))[i + 1]? with
      | some g =>
        rw [hl.next i fr g hi hj] at h2
        cases h2
        exact ih (i + 1) g hj (by omega) path' h3
      | none =>
        have hk0 : i + 1 = (stackOf p ops (nm "main")).length := by
          have := List.getElem?_eq_none_iff.1 hj
          have := (List.getElem?_eq_some_iff.1 hi).1
          omega
        have hlast := hl.last fr (by
          rw [List.getLast?_eq_getElem?, ← hk0]
          exact hi)
        rw [hlast] at h2
        cases h2
  refine ⟨?_, ?_⟩
  · have hne : stackOf p ops (nm "main") ≠ [] := List.ne_nil_of_mem hmem
    refine ⟨(stackOf p ops (nm "main")).getLast hne, hperm.mem_iff.1 (List.getLast_mem hne), ?_⟩
    exact hl.last _ (List.getLast?_eq_some_getLast hne)
  · intro a ha path hc
    obtain ⟨i, hi⟩ := List.getElem?_of_mem hmem
    have hlt := (List.getElem?_eq_some_iff.1 hi).1
    refine key ((stackOf p ops (nm "main")).length - i) i _ hi (by omega)
      ((ownMain p.env).wrapper :: path) ?_
    exact Calls.cont (hv.prog (nm "main") _ hmem) ha hc

/-! ### the hypotheses can be met -/

namespace Demo

/-- A tool of priority 5 and one of the default priority wrap main, in the application of Demo/World. -/
def ops4 : List Op :=
  [ .setPriority M 5,
    .wrap [⟨nm "main", 0x50d, 13⟩] (some M),
    .wrap [⟨nm "main", 0x50e, 14⟩] (some B) ]

theorem honest4 : Honest env P ops4 := by
  refine ⟨by decide +kernel, ?_, envOk⟩
  intro u hu
  simp only [ops4, List.flatMap_cons, List.flatMap_nil, tableOf, List.nil_append, List.append_nil,
    List.cons_append, List.mem_cons, List.not_mem_nil, or_false] at hu
  rcases hu with rfl | rfl <;> decide

theorem history4 : History proc False ops4 where
  honest := honest4
  loader := ⟨fun _ => dlopen_def, fun h => (by cases h), fun h => (by cases h), trivial⟩
  cons := False.elim
  filter := False.elim
  main := False.elim
  short := False.elim

theorem settled4 : Settled ops4 :=
  settled_of ⟨Or.inl ⟨by decide +kernel, fun _ _ h => by cases h⟩, trivial, trivial, trivial⟩

theorem cl_main4 : clientFrames ops4 (nm "main") = [⟨M, 0x50d, 13⟩, ⟨B, 0x50e, 14⟩] := by
  decide +kernel

/-- C73: the wrapper of the tool of priority 5 is skipped, the other one runs. -/
example : ∃ s os a, run proc.env ops4 proc.start = .ok (s, os) ∧
    libcStartMainArg proc.env s = .ok a ∧ Calls proc.P s a [0x50e, 0x10004000] := by
  obtain ⟨s, hr, -⟩ := history_run proc_ok history4
  obtain ⟨order, h1, a, h2, h3, -⟩ := C73_start_skips_high_priority proc_ok history4 settled4 hr
    (by rw [cl_main4]; simp) (show _ = some 0x10004000 by decide +kernel) (by decide)
  refine ⟨s, _, a, hr, h2, ?_⟩
  have e : (clientFrames ops4 (nm "main")).filter
      (fun fr => decide (prioOr fr.tool ops4 ≤ prioOr (nm "gotcha") ops4)) = [⟨B, 0x50e, 14⟩] := by
    decide +kernel
  rw [e] at h1
  rw [List.perm_singleton.1 h1] at h3
  exact (h3 _).2 rfl

/-- C73: the call that starts the program. -/
example : ∃ s os f m, run proc.env ops4 proc.start = .ok (s, os) ∧
    libcStartMain proc.env s 0x10004000 [1, 2, 3] = .ok (f, m, [1, 2, 3]) := by
  obtain ⟨s, hr, -⟩ := history_run proc_ok history4
  obtain ⟨f, m, h1, -⟩ := C73_start_call proc_ok history4 hr (by rw [cl_main4]; simp)
    (show _ = some 0x10004000 by decide +kernel) (by decide)
    (show _ = some 0x20007000 by decide +kernel) (by decide) [1, 2, 3]
  exact ⟨s, _, f, m, hr, h1 _⟩

/-- C73, `C73_all_skipped`: without the second tool, main itself is started. -/
example : ∃ s os, run proc.env (ops4.take 2) proc.start = .ok (s, os) ∧
    libcStartMainArg proc.env s = .ok 0x10004000 := by
  have h : History proc False (ops4.take 2 ++ ops4.drop 2) := by
    rw [List.take_append_drop]; exact history4
  have hs : Settled (ops4.take 2) :=
    settled_of ⟨Or.inl ⟨by decide +kernel, fun _ _ h => by cases h⟩, trivial, trivial⟩
  have hc : clientFrames (ops4.take 2) (nm "main") = [⟨M, 0x50d, 13⟩] := by decide +kernel
  obtain ⟨s, hr, -⟩ := history_run proc_ok h.prefix
  refine ⟨s, _, hr, C73_all_skipped proc_ok h.prefix hs hr (by rw [hc]; simp) ?_
    (by decide +kernel) (by decide)⟩
  intro fr hfr
  rw [hc, List.mem_singleton] at hfr
  subst hfr
  decide +kernel

/-- A program that does not export main: the other objects of Demo/World. -/
def bare : Process := { proc with libs := [plug, libc] }

theorem bare_objs : ∀ l ∈ bare.libs, U l := by
  intro l hl
  simp only [bare, List.mem_cons, List.not_mem_nil, or_false] at hl
  rcases hl with rfl | rfl
  · exact Or.inr (Or.inr rfl)
  · exact Or.inr (Or.inl rfl)

theorem bare_ok : bare.Ok where
  world := world
  objs := bare_objs
  nd := by decide
  placed := placed bare_objs
  cover := by
    intro l hl s hs
    simp only [bare, List.mem_cons, List.not_mem_nil, or_false] at hl
    rcases hl with rfl | rfl
    · exact Or.inr (cover_plug s hs)
    · rw [rl_libc] at hs; cases hs
  ne := by simp [bare]

theorem history_bare : History bare False ops4 where
  honest := honest4
  loader := by
    refine ⟨fun _ => ?_, fun h => (by cases h), fun h => (by cases h), trivial⟩
    show firstDef (env.vdsoOf [plug, libc]) [plug, libc] (nm "dlopen") ≠ none
    decide +kernel
  cons := False.elim
  filter := False.elim
  main := False.elim
  short := False.elim

/-- C74: a program that does not export main never gets to it. -/
example : ∃ s os, run bare.env ops4 bare.start = .ok (s, os) ∧
    ∀ a, libcStartMainArg bare.env s = .ok a → ∀ path, ¬ Calls bare.P s a path := by
  obtain ⟨s, hr, -⟩ := history_run bare_ok history_bare
  exact ⟨s, _, hr, (C74_unexported_main_never_starts bare_ok history_bare hr (by rw [cl_main4]; simp)
    (by decide +kernel)).2⟩

end Demo

end Gotcha
