import Verif.Demo.Bad
import Verif.Demo.Facts
/-
A process in which the link_map address of an unloaded object is used again for another object.
-/
namespace Gotcha.Demo
open Spec

/-- Another plugin; its link_map is where that of `plug` was. -/
def plug2 : Lib := obj 0x3000 "/lib/other.so" 0x40000000
  [(nm "baz", 0x4000)] [(0x18, nm "foo")]

def U2 (l : Lib) : Prop := U l ∨ l = plug2

def proc2 : Process := { proc with U := U2 }

theorem rl_plug2 : rlOf plug2 = [(0x18, nm "foo")] := rlOf_obj (by decide)
theorem marks_plug2 : marksOf env plug2 = [(0x40000000, 0x1000)] := by decide +kernel

theorem hash_plug2 : ∀ l, U l → linkMapHash l ≠ linkMapHash plug2 := by
  rintro l (rfl | rfl | rfl) <;> decide +kernel

theorem world2 : World env U2 where
  page48 := world.page48
  page64 := world.page64
  ident := by
    rintro l l' (hl | rfl) (hl' | rfl) h
    · exact world.ident hl hl' h
    · exact absurd h (hash_plug2 l hl)
    · exact absurd h.symm (hash_plug2 l' hl')
    · rfl
  named := by
    rintro l (hl | rfl)
    · exact world.named hl
    · rfl
  exp := by
    rintro l (hl | rfl) n
    · exact world.exp hl n
    · exact ⟨_, exported_img (by decide) _ _⟩
  rel := by
    rintro l (hl | rfl)
    · exact world.rel hl
    · exact ⟨_, relocs_img (by decide)⟩

theorem proc2_ok : proc2.Ok where
  world := world2
  objs := fun l hl => Or.inl (proc_ok.objs l hl)
  nd := proc_ok.nd
  placed := proc_ok.placed
  cover := proc_ok.cover
  ne := proc_ok.ne

/-- The second plugin is loaded; the loader has bound its slot to libc's foo. -/
def loadPlug2 : Load :=
  { libs := [plug2]
    mem := fun a => if a = 0x40000018 then some 0x20004000 else none
    wr := fun _ => none }

def opsReuse : List Op :=
  [ .wrap [⟨nm "foo", 0x50a, 10⟩] (some B), .dlopen loadPlug, .unload deadPlug, .dlopen loadPlug2 ]

theorem names_plug2 : ∀ l, U l → l.name ≠ plug2.name := by
  rintro l (rfl | rfl | rfl) <;> decide +kernel

theorem loadPlug_ok2 (strict : Prop) : LoadsOk proc2 strict proc2.seen [app, libc] loadPlug where
  objs := fun l hl => Or.inl ((loadPlug_ok strict).objs l hl)
  nd := (loadPlug_ok strict).nd
  again := (loadPlug_ok strict).again
  placed := (loadPlug_ok strict).placed
  old := (loadPlug_ok strict).old
  cover := (loadPlug_ok strict).cover
  cons := (loadPlug_ok strict).cons
  keep := (loadPlug_ok strict).keep

theorem loadPlug2_ok (strict : Prop) :
    LoadsOk proc2 strict (seenWith proc2.seen [plug]) [app, libc] loadPlug2 where
  objs := by
    intro l hl
    simp only [loadPlug2, List.mem_singleton] at hl
    exact Or.inr hl
  nd := by
    show [app.lm, libc.lm, plug2.lm].Nodup
    decide
  again := by
    intro l hl hs
    simp only [loadPlug2, List.mem_singleton] at hl
    subst hl
    exfalso
    rcases hs with hs | hs
    · exact names_plug2 _ (proc_ok.objs _ hs) rfl
    · rw [List.mem_singleton] at hs
      exact names_plug2 plug (Or.inr (Or.inr rfl)) (congrArg Lib.name hs).symm
  placed := by
    have hn := names_plug2
    intro l hl o ho h1 h2
    rcases List.mem_append.1 hl with hl | hl <;> rcases List.mem_append.1 ho with ho | ho
    · exact proc_ok.placed l hl o ho h1 h2
    · simp only [loadPlug2, List.mem_singleton] at ho
      subst ho
      exact absurd h1 (hn l (proc_ok.objs l hl))
    · simp only [loadPlug2, List.mem_singleton] at hl
      subst hl
      exact absurd h1.symm (hn o (proc_ok.objs o ho))
    · simp only [loadPlug2, List.mem_singleton] at hl ho
      rw [hl, ho]
  old := by intro l _ s _; simp [loadPlug2]
  cover := by
    intro l hl s hs
    simp only [loadPlug2, List.mem_singleton] at hl
    subst hl
    right
    rw [rl_plug2] at hs
    refine ⟨(0x40000000, 0x1000), by rw [show marksOf proc2.env plug2 = _ from marks_plug2]; simp, ?_⟩
    simp only [List.mem_cons, List.not_mem_nil, or_false] at hs
    rcases hs with rfl
    decide
  cons := by
    intro _ l hl l' hl' p hp q hq e
    have key : ∀ l ∈ [app, libc] ++ loadPlug2.libs, l = app ∨ l = plug2 ∨ rlOf l = [] := by
      intro l hl
      simp only [loadPlug2, List.cons_append, List.nil_append, List.mem_cons, List.not_mem_nil,
        or_false] at hl
      rcases hl with rfl | rfl | rfl
      · exact Or.inl rfl
      · exact Or.inr (Or.inr rl_libc)
      · exact Or.inr (Or.inl rfl)
    rcases key l hl with rfl | rfl | h1 <;> rcases key l' hl' with rfl | rfl | h2
    · simp only [rl_app, List.mem_cons, List.not_mem_nil, or_false] at hp hq
      rcases hp with rfl | rfl | rfl | rfl <;> rcases hq with rfl | rfl | rfl | rfl <;> first
        | rfl
        | exact absurd e (by decide)
    · simp only [rl_app, rl_plug2, List.mem_cons, List.not_mem_nil, or_false] at hp hq
      subst hq
      rcases hp with rfl | rfl | rfl | rfl <;> first
        | rfl
        | exact absurd e (by decide)
    · rw [h2] at hq; cases hq
    · simp only [rl_app, rl_plug2, List.mem_cons, List.not_mem_nil, or_false] at hp hq
      subst hp
      rcases hq with rfl | rfl | rfl | rfl <;> first
        | rfl
        | exact absurd e (by decide)
    · simp only [rl_plug2, List.mem_cons, List.not_mem_nil, or_false] at hp hq
      subst hp; subst hq; rfl
    · rw [h2] at hq; cases hq
    all_goals (rw [h1] at hp; cases hp)
  keep := by
    intro _ l hl s hs
    simp only [List.mem_cons, List.not_mem_nil, or_false] at hl
    rcases hl with rfl | rfl
    · rw [rl_app] at hs
      simp only [List.mem_cons, List.not_mem_nil, or_false] at hs
      rcases hs with rfl | rfl | rfl | rfl <;> decide
    · rw [rl_libc] at hs; cases hs

theorem history_reuse (strict : Prop) : History proc2 strict opsReuse where
  honest := ⟨by decide +kernel, by
    intro u hu
    simp only [opsReuse, List.flatMap_cons, List.flatMap_nil, tableOf,
      List.append_nil, List.mem_cons, List.not_mem_nil, or_false] at hu
    subst hu; decide, envOk⟩
  loader := ⟨fun _ => dlopen_def, loadPlug_ok2 strict, Or.inl rfl, loadPlug2_ok strict, trivial⟩
  cons := fun _ => cons proc_ok.objs
  filter := by intro _ f hf; simp [opsReuse] at hf
  main := fun _ => mainAlone_of ⟨fun h => absurd h (notMain (by decide +kernel)), trivial,
    trivial, trivial, trivial⟩
  short := fun _ => by decide

theorem reg_reuse : registered env opsReuse (nm "foo") = [⟨B, 0x50a, 10⟩] := by decide +kernel
theorem real_reuse : realAfter env [app, libc] opsReuse (nm "foo") = some 0x20004000 := by
  decide +kernel
theorem slot_plug2 : (0x18, nm "foo") ∈ rlOf plug2 := by rw [rl_plug2]; simp

end Gotcha.Demo
