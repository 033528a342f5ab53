import Verif.Props.Copies
/-
Two copies of GOTCHA in the process of Demo/World, kept apart by their filters.
-/
namespace Gotcha.Demo
open Spec

def copies : Copies Bool :=
  { env := fun b => if b then envTwin else env, U := U, P := P, libs := proc.libs, mem := proc.mem, wr := proc.wr }

/-- The text of each copy's filter. -/
def text (b : Bool) : Name := if b then nm "plugin" else nm "app"

/-- Both copies set their filters, both wrap foo, the plugin gets loaded. -/
def evsTwo : List (Bool × Op) :=
  [ (false, .setFilter (.byName (some (text false)))), (true, .setFilter (.byName (some (text true)))),
    (false, .wrap [⟨nm "foo", 0x50a, 10⟩] (some B)), (true, .wrap [⟨nm "foo", 0x530, 0x30⟩] (some A)),
    (true, .dlopen loadPlug) ]

theorem view_false : viewOf false evsTwo = [.setFilter (.byName (some (nm "app"))),
    .wrap [⟨nm "foo", 0x50a, 10⟩] (some B), .load loadPlug] := rfl
theorem view_true : viewOf true evsTwo = [.setFilter (.byName (some (nm "plugin"))),
    .wrap [⟨nm "foo", 0x530, 0x30⟩] (some A), .dlopen loadPlug] := rfl

theorem copies_ok (b : Bool) : (copies.proc b).Ok := by
  have h := proc_ok
  cases b
  · exact h
  · exact ⟨⟨h.world.page48, h.world.page64, h.world.ident, h.world.named, h.world.exp, h.world.rel⟩, h.objs,
      h.nd, h.placed, h.cover, fun hc => by cases hc⟩

theorem plug_not_app : ¬ Named (nm "app") plug := by
  rintro ⟨n, ⟨⟩, hn⟩
  rw [← occursIn_iff] at hn
  revert hn
  decide +kernel

theorem app_not_plugin : ¬ Named (nm "plugin") app := by
  rintro ⟨n, ⟨⟩, hn⟩
  rw [← occursIn_iff] at hn
  revert hn
  decide +kernel

theorem copies_history (b : Bool) : HistoryFor (copies.proc b) True (Named (text b)) (viewOf b evsTwo) := by
  have h := loadPlug_ok True
  cases b
  · refine { honest := ?_, loader := ?_, cons := fun _ => cons proc_ok.objs, filter := ?_, main := ?_,
             short := fun _ => by decide }
    · refine ⟨fun _ => dlopen_def, ⟨h.objs, h.nd, fun l hl hs => absurd trivial (h.again l hl hs).1,
        h.placed, h.old, h.cover, h.cons, fun _ l hl _ => h.keep trivial l hl⟩, ?_, trivial⟩
      intro _ _ l hl hn
      simp only [loadPlug, List.mem_singleton] at hl
      subst hl
      exact plug_not_app hn
    · intro _ f hf l hl
      rw [view_false] at hf
      simp only [List.mem_cons, Op.setFilter.injEq, reduceCtorEq, List.not_mem_nil, or_false] at hf
      subst hf
      exact hl
    · exact fun _ => mainAlone_of ⟨trivial, fun h => absurd h (notMain (by decide +kernel)), trivial, trivial⟩
    · refine ⟨show (handlesOf env _).Nodup by rw [view_false]; decide +kernel, ?_, envOk⟩
      intro u hu
      rw [view_false] at hu
      simp only [List.flatMap_cons, List.flatMap_nil, tableOf, List.append_nil, List.nil_append,
        List.mem_singleton] at hu
      subst hu
      show Demo.P 0x50a = some 10
      decide
  · refine { honest := ?_, loader := ?_, cons := fun _ => cons proc_ok.objs, filter := ?_, main := ?_,
             short := fun _ => by decide }
    · exact ⟨fun _ => dlopen_def, ⟨h.objs, h.nd, fun l hl hs => absurd trivial (h.again l hl hs).1,
        h.placed, h.old, h.cover, h.cons, fun _ l hl _ => h.keep trivial l hl⟩, trivial⟩
    · intro _ f hf l hl
      rw [view_true] at hf
      simp only [List.mem_cons, Op.setFilter.injEq, reduceCtorEq, List.not_mem_nil, or_false] at hf
      subst hf
      exact hl
    · exact fun _ => mainAlone_of ⟨trivial, fun h => absurd h (notMain (by decide +kernel)), trivial, trivial⟩
    · refine ⟨show (handlesOf envTwin _).Nodup by rw [view_true]; decide +kernel, ?_, envTwinOk⟩
      intro u hu
      rw [view_true] at hu
      simp only [List.flatMap_cons, List.flatMap_nil, tableOf, List.append_nil, List.nil_append,
        List.mem_singleton] at hu
      subst hu
      show Demo.P 0x530 = some 0x30
      decide

/-- The copy a handle variable belongs to. -/
def ownTwo (h : HAddr) : Bool := decide (h ∈ handlesOf envTwin (viewOf true evsTwo))

theorem ownTwo_ok (b : Bool) : ∀ x ∈ handlesOf (copies.env b) (viewOf b evsTwo), ownTwo x = b := by
  cases b
  · show ∀ x ∈ handlesOf env (viewOf false evsTwo), ownTwo x = false
    decide +kernel
  · intro x hx
    exact decide_eq_true hx

theorem slots_apart (i j : Bool) (hij : i ≠ j) : ∀ l l', copies.U l → copies.U l' → Named (text i) l →
    Named (text j) l' → ∀ q ∈ rlOf l, ∀ q' ∈ rlOf l', l.addr + q.1 ≠ l'.addr + q'.1 := by
  have key : ∀ l l', U l → U l' → Named (nm "app") l → Named (nm "plugin") l' → ∀ q ∈ rlOf l, ∀ q' ∈ rlOf l',
      l.addr + q.1 ≠ l'.addr + q'.1 := by
    rintro l l' hl hl' hn hn' q hq q' hq'
    rcases hl with rfl | rfl | rfl
    · rcases hl' with rfl | rfl | rfl
      · exact absurd hn' app_not_plugin
      · rw [rl_libc] at hq'; cases hq'
      · rw [rl_plug, List.mem_singleton] at hq'
        subst hq'
        rw [rl_app] at hq
        simp only [List.mem_cons, List.not_mem_nil, or_false] at hq
        rcases hq with rfl | rfl | rfl | rfl <;> decide
    · rw [rl_libc] at hq; cases hq
    · exact absurd hn plug_not_app
  cases i <;> cases j
  · exact absurd rfl hij
  · exact key
  · exact fun l l' hl hl' hn hn' q hq q' hq' e => key l' l hl' hl hn' hn q' hq' q hq e.symm
  · exact absurd rfl hij

theorem filters_first (pre : List (Bool × Op)) (j : Bool) (op : Op) (post : List (Bool × Op))
    (h : evsTwo = pre ++ (j, op) :: post) :
    (j, Op.setFilter (.byName (some (text j)))) ∈ pre ++ [(j, op)] := by
  unfold evsTwo at h
  match pre, h with
  | [], h => simp only [List.nil_append, List.cons.injEq, Prod.mk.injEq] at h; obtain ⟨⟨rfl, rfl⟩, -⟩ := h; simp
  | [_], h =>
    simp only [List.cons_append, List.nil_append, List.cons.injEq, Prod.mk.injEq] at h
    obtain ⟨-, ⟨rfl, rfl⟩, -⟩ := h; simp
  | a :: b :: pre, h =>
    simp only [List.cons_append, List.cons.injEq] at h
    obtain ⟨rfl, rfl, -⟩ := h
    cases j <;> simp

theorem filters_only (j : Bool) (f : Filter) (h : (j, Op.setFilter f) ∈ evsTwo) : f = .byName (some (text j)) := by
  simp only [evsTwo, List.mem_cons, Prod.mk.injEq, Op.setFilter.injEq, reduceCtorEq, and_false,
    List.not_mem_nil, or_false] at h
  rcases h with ⟨rfl, rfl⟩ | ⟨rfl, rfl⟩ <;> rfl

end Gotcha.Demo
