import Verif.Model.FilterTest
import Verif.Props.PointerProg
import Verif.Props.Tests
import Verif.Props.Refute
import Verif.Demo.FilterTest
/-
C114: programs and library filters.
-/
namespace Gotcha
open Spec Tests

/-- C114.  Calls from an object that was treated well up to the history `ops` and has been kept out by filters
since then, after any continuation `more`.  A call of `f` through a slot of an object that no filter keeps out
runs the wrappers `outer`, `top` and `inner`; from the object kept out, `top` and `inner` run, where `top` was
the outermost wrapper when the object was reached last, and `old` are the other wrappers there were at that
time.  So tools that wrap `f` from then on are seen if they come inside of `top`, and not if they come outside of it. -/
theorem C114_kept_out_computes {p : Process} (ok : p.Ok) {good free : Lib → Prop} {ops more : List Op}
    (h0 : HistoryFor p True good ops) (h : HistoryFor p True free (ops ++ more)) {s os}
    (hr : run p.env (ops ++ more) p.start = .ok (s, os)) {f : Name} (hne : registered p.env ops f ≠ [])
    {r : Addr} (hreal : realAfter p.env p.libs (ops ++ more) f = some r) (hr0 : r ≠ 0)
    (hw0 : ∀ fr ∈ registered p.env (ops ++ more) f, fr.wrapper ≠ 0) :
    ∃ (outer inner old : List Frame) (top : Frame),
      (outer ++ top :: inner).Perm (registered p.env (ops ++ more) f) ∧
      (Settled (ops ++ more) → (outer ++ top :: inner).Pairwise
        (fun a b => prioOr b.tool (ops ++ more) ≤ prioOr a.tool (ops ++ more))) ∧
      (top :: old).Perm (registered p.env ops f) ∧ old.Sublist inner ∧
      (Settled ops → ∀ b ∈ old, prioOr b.tool ops ≤ prioOr top.tool ops) ∧
      ∀ {V : Type} (code : Addr → V → Prog V) (W : Frame → (V → V) → V → V) (g : V → V),
        Computes (machine p.env) code s r g →
        (∀ x ∈ top :: inner, Turns (machine p.env) code s x (W x)) →
        (∀ l ∈ libsAfter p.libs ops, good l → ∀ off, (off, f) ∈ rlOf l → LeftAlone p ops more (l.addr + off) →
          Computes (machine p.env) code s (s.mem (l.addr + off)) ((top :: inner).foldr W g)) ∧
        ((∀ x ∈ outer, Turns (machine p.env) code s x (W x)) →
          ∀ l ∈ libsAfter p.libs (ops ++ more), free l → ∀ off, (off, f) ∈ rlOf l →
          Computes (machine p.env) code s (s.mem (l.addr + off)) ((outer ++ top :: inner).foldr W g)) := by
  obtain ⟨fr', st', hst⟩ := stackOf_ne hne
  have hsub := stackOf_sublist p ops more f
  rw [hst] at hsub
  obtain ⟨X', Y', hXY, hY⟩ := sublist_split hsub
  refine ⟨X', Y', st', fr', ?_, ?_, ?_, hY, ?_, ?_⟩
  · rw [← hXY]; exact stackOf_perm p _ f
  · intro hs; rw [← hXY]; exact stackOf_sorted p hs f
  · rw [← hst]; exact stackOf_perm p ops f
  · intro hs
    have := stackOf_sorted p hs f
    rw [hst] at this
    exact (List.pairwise_cons.1 this).1
  · intro V code W g hC hW
    constructor
    · intro l hl hg off hoff hla
      have hs : (machine p.env).goto s (.slot l off) fr'.wrapper :=
        ideal_machine ok h hr _ _ (.kept (.wrapped rfl h0 hl hg hoff hst hla))
      simp only [machine] at hs
      rw [← hs]
      exact inner_computes ok h hr hreal hr0 hw0 hC Y' X' fr' hXY hW
    · intro hX l hl hg off hoff
      have hall : ∀ x ∈ X' ++ fr' :: Y', Turns (machine p.env) code s x (W x) := by
        intro x hx
        rcases List.mem_append.1 hx with hx | hx
        · exact hX x hx
        · exact hW x hx
      cases e : X' ++ fr' :: Y' with
      | nil => simp at e
      | cons a as =>
        have hs : (machine p.env).goto s (.slot l off) a.wrapper :=
          ideal_machine ok h hr _ _ (.wrapped ⟨hl, hg⟩ hoff (hXY.trans e))
        simp only [machine] at hs
        rw [← hs]
        exact inner_computes ok h hr hreal hr0 hw0 hC as [] a (hXY.trans e) (by rw [← e]; exact hall)

/-- C114: functions that were not wrapped when the object was reached last.  Calls from it go where the loader has
bound them, whatever tools wrap the function from then on. -/
theorem C114_kept_out_unwrapped {p : Process} (ok : p.Ok) {good free : Lib → Prop} {ops more : List Op}
    (h0 : HistoryFor p True good ops) (h : HistoryFor p True free (ops ++ more)) {s os}
    (hr : run p.env (ops ++ more) p.start = .ok (s, os)) {f : Name} (hne : registered p.env ops f = [])
    {l : Lib} (hl : l ∈ libsAfter p.libs ops) (hg : good l) {off a : Addr} (hoff : (off, f) ∈ rlOf l)
    (hb : BoundTo p ops l off f a) (hla : LeftAlone p ops more (l.addr + off))
    {V : Type} (code : Addr → V → Prog V) (x : V) (k : V → Prog V) (t v s') :
    Eval (machine p.env) code s (.call (.slot l off) x k) t v s' ↔
      Eval (machine p.env) code s (.call (.fixed a) x k) t v s' := by
  refine call_fixed (ideal_machine ok h hr _ _ (.kept (.plain rfl h0 hl hg hoff ?_ hb hla))) x k t v s'
  have := stackOf_perm p ops f
  rw [hne] at this
  exact List.perm_nil.1 this

/-- When a slot is left alone: the filters in force do not let its object through, no other object has a slot at
the same place, and loading does not write it. -/
theorem leftAlone_of {p : Process} {ops more : List Op} {l : Lib} {a : Addr}
    (hU : ∀ m1 op m2, more = m1 ++ op :: m2 → ∀ l' ∈ libsAfter p.libs (ops ++ m1 ++ [op]), l' ≠ l →
      ∀ q ∈ rlOf l', a ≠ l'.addr + q.1)
    (hrej : ∀ m1 op m2, more = m1 ++ op :: m2 →
      ¬ Admitted (filterAfter (ops ++ m1 ++ [op])) (libsAfter p.libs (ops ++ m1 ++ [op])) l)
    (hld : ∀ op ∈ more, ∀ ld, op = .dlopen ld ∨ op = .load ld → ld.mem a = none) : LeftAlone p ops more a := by
  intro m1 op m2 e
  refine ⟨?_, hld op (by rw [e]; simp)⟩
  intro l' hadm
  by_cases hll : l' = l
  · subst hll
    exact absurd hadm (hrej m1 op m2 e)
  · obtain ⟨X, Y, eX, -⟩ := hadm
    exact hU m1 op m2 e l' (by rw [eX]; simp) hll

/-! ### test/filter -/

theorem eval_andThen {S V : Type} {M : Sem S} {code : Addr → V → Prog V} {c : V → Prog V} {s : S} {k : Prog V}
    {t1 v s1} (h : Eval M code s k t1 v s1) {t2 w s2} (h2 : Eval M code s1 (c v) t2 w s2) :
    Eval M code s (k.andThen c) (t1 ++ t2) w s2 := by
  induction h with
  | ret => exact h2
  | out _ ih => exact .out (ih h2)
  | null h1 _ ih => exact .null h1 (ih h2)
  | other h1 h3 _ ih => exact .other h1 h3 (ih h2)
  | call h1 h3 _ _ ih => rw [List.append_assoc]; exact .call h1 h3 (ih h2)
  | look h1 _ ih => exact .look h1 (ih h2)
  | event h1 _ ih => exact .event h1 (ih h2)

theorem num_own : nm "return_four" ∉ ownNames ∧ nm "return_five" ∉ ownNames ∧ nm "return_six" ∉ ownNames := by
  decide +kernel

theorem num_ne : nm "return_four" ≠ nm "return_five" ∧ nm "return_four" ≠ nm "return_six" := by decide +kernel

/-- A history of gotcha_wraps that is fine for some objects is for all. -/
theorem historyFor_all {p : Process} {good : Lib → Prop} {tbl : List UBinding} {tool : Option Name}
    (h : HistoryFor p True good [.wrap tbl tool]) : HistoryFor p True (fun _ => True) [.wrap tbl tool] where
  honest := h.honest
  loader := ⟨h.loader.1, trivial⟩
  cons := h.cons
  filter := by intro _ f hf; simp at hf
  main := h.main
  short := h.short

/-- The events of test/filter, but for the last one. -/
def filterOps (w4 w5 w6 : Addr) (h4 h5 h6 : HAddr) : List Op :=
  [wrapFour w4 h4, filterNum, wrapFive w5 h5, .setFilter .last, wrapSix w6 h6, .setFilter .all]

/-- C114: test/filter.  The program's call of return_four gets 5 from the wrapper; its calls of return_five,
wrapped while the filter asks for libnum3.so, and return_six, wrapped while it asks for the last library, get 5
and 6 from the library, since the program is neither; it ends with 0.  The last gotcha_wrap passes a binding that
has been wrapped before (C05), and returns. -/
theorem C114_filter_test {p : Process} (ok : p.Ok) {good : Lib → Prop} {w4 w5 w6 : Addr} {h4 h5 h6 : HAddr}
    (h : HistoryFor p True good (filterOps w4 w5 w6 h4 h5 h6))
    (hd : ∀ f ∈ [nm "return_four", nm "return_five", nm "return_six"],
      firstDef (p.env.vdsoOf p.libs) p.libs f ≠ none)
    {l : Lib} {X Y : List Lib} (hl : p.libs = X ++ l :: Y) (hY : Y ≠ []) (hlY : l ∉ Y)
    (hname : ∀ n, l.name = some n → ¬ nm "libnum3.so" <:+: n) {off4 off5 off6 r5 r6 : Addr}
    (ho4 : (off4, nm "return_four") ∈ rlOf l) (ho5 : (off5, nm "return_five") ∈ rlOf l)
    (ho6 : (off6, nm "return_six") ∈ rlOf l) (hm5 : p.mem (l.addr + off5) = r5) (hm6 : p.mem (l.addr + off6) = r6)
    (hown : ∀ l' ∈ p.libs, l' ≠ l → ∀ q ∈ rlOf l', l.addr + off5 ≠ l'.addr + q.1 ∧ l.addr + off6 ≠ l'.addr + q.1)
    {code : Addr → Int → Prog Int} (c4 : code w4 = returns 5) (c5 : code r5 = returns 5)
    (c6 : code r6 = returns 6) :
    ∃ s', ∀ t v s'', Eval (machine p.env) code p.start (filterMain w4 w5 w6 h4 h5 h6 l off4 off5 off6) t v s'' ↔
      t = [] ∧ v = 0 ∧ s'' = s' := by
  have hlm : l ∈ p.libs := by rw [hl]; simp
  have h0 : HistoryFor p True (fun _ => True) [wrapFour w4 h4] :=
    historyFor_all (HistoryFor.prefix (pre := [wrapFour w4 h4]) h)
  have hbody : Eval (ideal p good (stackOf p)) code [] (filterBody w4 w5 w6 h4 h5 h6 l off4 off5 off6) [] 0
      (filterOps w4 w5 w6 h4 h5 h6) := by
    have rej : ∀ more, more <+: [filterNum, wrapFive w5 h5, .setFilter .last, wrapSix w6 h6] → ∀ a,
        (∀ l' ∈ p.libs, l' ≠ l → ∀ q ∈ rlOf l', a ≠ l'.addr + q.1) → LeftAlone p [wrapFour w4 h4] more a := by
      rintro more ⟨rest, e⟩ a ha
      have hmem : ∀ op ∈ more, op ∈ [filterNum, wrapFive w5 h5, .setFilter .last, wrapSix w6 h6] :=
        fun op ho => by rw [← e]; simp [ho]
      have hq : ∀ op ∈ [wrapFour w4 h4] ++ more, ∀ L, loadStep L op = L := by
        intro op ho L
        rcases List.mem_append.1 ho with ho | ho
        · rw [List.mem_singleton.1 ho]; rfl
        · have := hmem op ho
          simp only [List.mem_cons, List.not_mem_nil, or_false] at this
          rcases this with rfl | rfl | rfl | rfl <;> rfl
      have hlib : ∀ m1 op m2, more = m1 ++ op :: m2 → libsAfter p.libs ([wrapFour w4 h4] ++ m1 ++ [op]) = p.libs := by
        intro m1 op m2 em
        refine libsAfter_quiet fun o ho => hq o ?_
        rw [em]
        simp only [List.mem_append, List.mem_cons, List.not_mem_nil, or_false] at ho ⊢
        rcases ho with (ho | ho) | ho <;> simp [ho]
      have hflt : ∀ m1 op m2, more = m1 ++ op :: m2 → filterAfter ([wrapFour w4 h4] ++ m1 ++ [op]) =
          .byName (some (nm "libnum3.so")) ∨ filterAfter ([wrapFour w4 h4] ++ m1 ++ [op]) = .last := by
        intro m1 op m2 em
        have e' : ∃ T, m1 ++ op :: T = [filterNum, wrapFive w5 h5, .setFilter .last, wrapSix w6 h6] :=
          ⟨m2 ++ rest, by rw [← e, em]; simp⟩
        obtain ⟨T, e'⟩ := e'
        match m1, e' with
        | [], e' => cases e'; exact Or.inl rfl
        | [_], e' => cases e'; exact Or.inl rfl
        | [_, _], e' => cases e'; exact Or.inr rfl
        | [_, _, _], e' => cases e'; exact Or.inr rfl
        | _ :: _ :: _ :: _ :: _, e' => exact absurd (congrArg List.length e') (by simp)
      refine leftAlone_of (l := l) ?_ ?_ ?_
      · intro m1 op m2 em l' hl'
        rw [hlib m1 op m2 em] at hl'
        exact ha l' hl'
      · intro m1 op m2 em hadm
        rw [hlib m1 op m2 em] at hadm
        obtain ⟨X', Y', eX, hlet⟩ := hadm
        rcases hflt m1 op m2 em with e2 | e2 <;> rw [e2] at hlet
        · obtain ⟨n, hn, hi⟩ := hlet
          exact hname n hn hi
        · have hY' : Y' = [] := by simpa [lets] using hlet
          subst hY'
          have e3 : (X ++ l :: Y).getLast? = some l := by rw [← hl, eX]; simp
          rw [List.getLast?_append, List.getLast?_cons] at e3
          obtain ⟨y, hy⟩ : ∃ y, Y.getLast? = some y := by
            rw [List.getLast?_eq_getLast_of_ne_nil hY]; exact ⟨_, rfl⟩
          rw [hy] at e3
          have : y = l := by simpa using e3
          exact hlY (this ▸ List.mem_of_getLast? hy)
      · intro op ho ld e2
        have := hmem op ho
        simp only [List.mem_cons, List.not_mem_nil, or_false] at this
        rcases this with rfl | rfl | rfl | rfl <;> rcases e2 with e2 | e2 <;> cases e2
    have hst : stackOf p [wrapFour w4 h4] (nm "return_four") = [⟨nm "test_filter_four", w4, h4⟩] :=
      stackOf_one num_own.1 (by simp [clientFrames, wrapFour, frame, toolName])
    refine .event ⟨found_of ?_, rfl⟩ ?_
    · intro u hu
      rw [List.mem_singleton.1 hu]
      exact hd _ (by simp)
    refine Eval.call (t1 := []) (t2 := []) (w := 5)
      (.kept (.wrapped (pre := [wrapFour w4 h4]) (post := []) rfl h0 hlm trivial ho4 hst
        (by intro m1 op m2 e; cases m1 <;> cases e))) (by rw [c4]; exact .ret) ?_
    refine .event ⟨.filter, rfl⟩ (.event ⟨found_of ?_, rfl⟩ ?_)
    · intro u hu
      rw [List.mem_singleton.1 hu]
      exact hd _ (by simp)
    refine Eval.call (t1 := []) (t2 := []) (w := 5) (a := r5)
      (.kept (.plain (pre := [wrapFour w4 h4]) (post := [filterNum, wrapFive w5 h5]) rfl h0 hlm trivial ho5
        (stackOf_none num_own.2.1 (by simp [clientFrames, wrapFour, num_ne.1]))
        (by rw [← hm5]; exact .start hlm (by simp [wrapFour]) num_own.2.1)
        (rej _ ⟨[.setFilter .last, wrapSix w6 h6], rfl⟩ _ fun l' h1 h2 q h3 => (hown l' h1 h2 q h3).1)))
      (by rw [c5]; exact .ret) ?_
    refine .event ⟨.filter, rfl⟩ (.event ⟨found_of ?_, rfl⟩ ?_)
    · intro u hu
      rw [List.mem_singleton.1 hu]
      exact hd _ (by simp)
    refine Eval.call (t1 := []) (t2 := []) (w := 6) (a := r6)
      (.kept (.plain (pre := [wrapFour w4 h4])
        (post := [filterNum, wrapFive w5 h5, .setFilter .last, wrapSix w6 h6]) rfl h0 hlm trivial ho6
        (stackOf_none num_own.2.2 (by simp [clientFrames, wrapFour, num_ne.2]))
        (by rw [← hm6]; exact .start hlm (by simp [wrapFour]) num_own.2.2)
        (rej _ ⟨[], rfl⟩ _ fun l' h1 h2 q h3 => (hown l' h1 h2 q h3).2)))
      (by rw [c6]; exact .ret) ?_
    refine .event ⟨.filter, rfl⟩ ?_
    exact .ret
  obtain ⟨s1, os1, hr1, hm⟩ := ideal_eval ok hbody h (s := p.start) (os := []) rfl
  have h' : History p False (filterOps w4 w5 w6 h4 h5 h6) := ⟨EventsFor.weak h.toEventsFor, h.honest⟩
  obtain ⟨s2, os2, hr2, -⟩ := C05_rewrapped_calls_never_return ok h' (tbl := [⟨nm "return_six", w6, h6⟩])
    (tool := none) (by simp) (by simp) (by
      intro u hu
      exact ⟨_, some (nm "test_filter_six"), (by simp [filterOps, wrapSix]), hu⟩)
  obtain ⟨s1', os1', o, e1, e2, -⟩ := run_last hr2
  rw [hr1] at e1
  cases e1
  have hall : Eval (machine p.env) code p.start (filterMain w4 w5 w6 h4 h5 h6 l off4 off5 off6) ([] ++ []) 0 s2 :=
    eval_andThen hm (.event e2 .ret)
  exact ⟨s2, fun t' v' s'' => ⟨fun h' => machine_det hall h', fun e => by rw [e.1, e.2.1, e.2.2]; exact hall⟩⟩

/-! ### concrete cases -/

namespace Demo

theorem num_main : nm "return_four" ≠ nm "main" ∧ nm "return_five" ≠ nm "main" ∧ nm "return_six" ≠ nm "main" := by
  decide +kernel

theorem histF : HistoryFor procF True (fun _ => False) (filterOps 0x50a 0x50b 0x50c 10 11 12) where
  honest := ⟨by decide, by
    intro u hu
    simp only [filterOps, wrapFour, wrapFive, wrapSix, filterNum, List.flatMap_cons, List.flatMap_nil, tableOf,
      List.append_nil, List.cons_append, List.nil_append, List.mem_cons, List.not_mem_nil, or_false] at hu
    rcases hu with rfl | rfl | rfl <;> decide, envOk⟩
  loader := ⟨fun _ => dlopenF, fun h => (by cases h), fun h => (by cases h), trivial⟩
  cons := fun _ => consF libsF_U
  filter := fun _ _ _ _ h => h.elim
  main := fun _ => mainAlone_none (by
    rintro o ho ⟨u, hu, e⟩
    have hu : u ∈ (filterOps 0x50a 0x50b 0x50c 10 11 12).flatMap tableOf := List.mem_flatMap.2 ⟨o, ho, hu⟩
    simp only [filterOps, wrapFour, wrapFive, wrapSix, filterNum, List.flatMap_cons, List.flatMap_nil, tableOf,
      List.append_nil, List.cons_append, List.nil_append, List.mem_cons, List.not_mem_nil, or_false] at hu
    rcases hu with rfl | rfl | rfl
    · exact num_main.1 e
    · exact num_main.2.1 e
    · exact num_main.2.2 e)
  short := fun _ => by decide

/-- test/filter in a process of three objects. -/
example (code : Addr → Int → Prog Int) (c4 : code 0x50a = returns 5) (c5 : code 0x50005000 = returns 5)
    (c6 : code 0x50006000 = returns 6) :
    ∃ s', ∀ t v s'', Eval (machine env) code procF.start
      (filterMain 0x50a 0x50b 0x50c 10 11 12 fprog 0x18 0x20 0x28) t v s'' ↔ t = [] ∧ v = 0 ∧ s'' = s' := by
  refine C114_filter_test procF_ok histF ?_ (X := []) (Y := [fnum, libc]) rfl (by simp) ?_ ?_
    (by rw [rl_fprog]; simp) (by rw [rl_fprog]; simp) (by rw [rl_fprog]; simp) (r5 := 0x50005000)
    (r6 := 0x50006000) rfl rfl ?_ c4 c5 c6
  · decide +kernel
  · simp only [List.mem_cons, List.not_mem_nil, or_false, not_or]
    exact ⟨fun e => absurd (congrArg Lib.lm e) (by decide), fun e => absurd (congrArg Lib.lm e) (by decide)⟩
  · intro n hn
    cases hn
    decide +kernel
  · intro l hl hne q hq
    exact absurd (onlyF l (libsF_U l hl) q hq) hne

/-- The history up to the first filter, with all objects. -/
theorem histF0 : HistoryFor procF True (fun _ => True) [wrapFour 0x50a 10] :=
  historyFor_all (HistoryFor.prefix (pre := [wrapFour 0x50a 10]) histF)

theorem leftF {a : Addr} (h : ∀ q ∈ rlOf fnum, a ≠ fnum.addr + q.1) :
    LeftAlone procF [wrapFour 0x50a 10] [filterNum, wrapFive 0x50b 11] a := by
  intro m1 op m2 e
  refine ⟨?_, ?_⟩
  · rintro l ⟨X, Y, eX, hlet⟩ q hq
    have hl : l ∈ procF.libs := by
      have : libsAfter procF.libs ([wrapFour 0x50a 10] ++ m1 ++ [op]) = procF.libs := by
        match m1, e with
        | [], e => cases e; rfl
        | [_], e => cases e; rfl
        | _ :: _ :: _, e => exact absurd (congrArg List.length e) (by simp)
      rw [this] at eX
      rw [eX]; simp
    obtain rfl := onlyF l (libsF_U l hl) q hq
    have hflt : filterAfter ([wrapFour 0x50a 10] ++ m1 ++ [op]) = .byName (some (nm "libnum3.so")) := by
      match m1, e with
      | [], e => cases e; rfl
      | [_], e => cases e; rfl
      | _ :: _ :: _, e => exact absurd (congrArg List.length e) (by simp)
    rw [hflt] at hlet
    obtain ⟨n, hn, hi⟩ := hlet
    cases hn
    exact absurd hi (by decide +kernel)
  · intro ld h
    match m1, e with
    | [], e => cases e; rcases h with h | h <;> cases h
    | [_], e => cases e; rcases h with h | h <;> cases h
    | _ :: _ :: _, e => exact absurd (congrArg List.length e) (by simp)

/-- The program's slot for return_five, which was not wrapped when the filter was set. -/
example (code : Addr → Int → Prog Int) (x : Int) (k : Int → Prog Int) (t v) : ∃ s os,
    run env [wrapFour 0x50a 10, filterNum, wrapFive 0x50b 11] procF.start = .ok (s, os) ∧ ∀ s',
    (Eval (machine env) code s (.call (.slot fprog 0x20) x k) t v s' ↔
      Eval (machine env) code s (.call (.fixed 0x50005000) x k) t v s') := by
  have h : HistoryFor procF True (fun _ => False) ([wrapFour 0x50a 10] ++ [filterNum, wrapFive 0x50b 11]) :=
    HistoryFor.prefix (post := [.setFilter .last, wrapSix 0x50c 12, .setFilter .all]) histF
  obtain ⟨s, hr, -⟩ := historyFor_run procF_ok h
  refine ⟨s, _, hr, fun s' => ?_⟩
  refine C114_kept_out_unwrapped procF_ok histF0 h hr (f := nm "return_five") ?_
    (show fprog ∈ [fprog, fnum, libc] by simp) trivial (by rw [rl_fprog]; simp) ?_ ?_ code x k t v s'
  · rw [registered_client _ _ num_own.2.1]
    simp [clientFrames, wrapFour, num_ne.1]
  · exact .start (p := procF) (show fprog ∈ [fprog, fnum, libc] by simp) (by simp [wrapFour]) num_own.2.1
  · exact leftF (by rw [rl_fnum]; simp)

/-- Its slot for return_four, which was: it goes on calling the wrapper. -/
example : ∃ s os, run env [wrapFour 0x50a 10, filterNum, wrapFive 0x50b 11] procF.start = .ok (s, os) ∧
    ∀ (code : Addr → Int → Prog Int) (W : Frame → (Int → Int) → Int → Int) (g : Int → Int),
      Computes (machine env) code s 0x50004000 g →
      Turns (machine env) code s ⟨nm "test_filter_four", 0x50a, 10⟩ (W ⟨nm "test_filter_four", 0x50a, 10⟩) →
      Computes (machine env) code s (s.mem (fprog.addr + 0x18)) (W ⟨nm "test_filter_four", 0x50a, 10⟩ g) := by
  have h : HistoryFor procF True (fun _ => False) ([wrapFour 0x50a 10] ++ [filterNum, wrapFive 0x50b 11]) :=
    HistoryFor.prefix (post := [.setFilter .last, wrapSix 0x50c 12, .setFilter .all]) histF
  obtain ⟨s, hr, -⟩ := historyFor_run procF_ok h
  refine ⟨s, _, hr, fun code W g hC hW => ?_⟩
  have hreg : ∀ more, (∀ t, clientFrames more t = [] ∨ t ≠ nm "return_four") →
      registered env ([wrapFour 0x50a 10] ++ more) (nm "return_four") = [⟨nm "test_filter_four", 0x50a, 10⟩] := by
    intro more hm
    rw [registered_client _ _ num_own.1]
    rcases hm (nm "return_four") with e | e
    · have : clientFrames ([wrapFour 0x50a 10] ++ more) (nm "return_four") =
        clientFrames [wrapFour 0x50a 10] (nm "return_four") ++ clientFrames more (nm "return_four") := by
        simp [clientFrames]
      rw [this, e]
      simp [clientFrames, wrapFour, frame, toolName]
    · exact absurd rfl e
  have hreg1 := hreg [filterNum, wrapFive 0x50b 11] (fun t => by
    by_cases e : t = nm "return_four"
    · left; subst e; simp [clientFrames, filterNum, wrapFive, num_ne.1.symm]
    · exact Or.inr e)
  have hreg0 := hreg [] (fun t => Or.inl rfl)
  obtain ⟨X, Y, old, top, h1, -, -, -, -, h6⟩ := C114_kept_out_computes procF_ok histF0 h hr
    (f := nm "return_four") (r := 0x50004000) (by
      rw [show registered procF.env [wrapFour 0x50a 10] _ = _ from hreg0]; simp) (by decide +kernel) (by decide) (by
      rw [show registered procF.env _ _ = _ from hreg1]; simp)
  rw [show registered procF.env _ _ = _ from hreg1] at h1
  have e := List.perm_singleton.1 h1
  match X, e with
  | [], e =>
    simp only [List.nil_append, List.cons.injEq] at e
    obtain ⟨rfl, rfl⟩ := e
    exact (h6 code W g hC (by intro x hx; rw [List.mem_singleton.1 hx]; exact hW)).1 fprog
      (show fprog ∈ [fprog, fnum, libc] by simp) trivial 0x18 (by rw [rl_fprog]; simp) (leftF (by rw [rl_fnum]; simp))
  | [_], e => simp at e
  | _ :: _ :: _, e => simp at e

end Demo

end Gotcha
