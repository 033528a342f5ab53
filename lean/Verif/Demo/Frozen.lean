import Verif.Demo.Reuse
/-
A process with two plugins that define the same function, loaded with RTLD_LOCAL: the loader has bound
the calls of the second one to its own definition.  Then the first plugin is unloaded.
-/
namespace Gotcha.Demo
open Spec

/-- A plugin that defines bar and calls it through its GOT. -/
def plugL : Lib := obj 0x4000 "/lib/local.so" 0x40000000
  [(nm "bar", 0x4000)] [(0x18, nm "bar")]

def UL (l : Lib) : Prop := U l ∨ l = plugL

def procL : Process := { proc with U := UL }

theorem rl_plugL : rlOf plugL = [(0x18, nm "bar")] := rlOf_obj (by decide)
theorem marks_plugL : marksOf env plugL = [(0x40000000, 0x1000)] := by decide +kernel

theorem hash_plugL : ∀ l, U l → linkMapHash l ≠ linkMapHash plugL := by
  rintro l (rfl | rfl | rfl) <;> decide +kernel

theorem worldL : World env UL where
  page48 := world.page48
  page64 := world.page64
  ident := by
    rintro l l' (hl | rfl) (hl' | rfl) h
    · exact world.ident hl hl' h
    · exact absurd h (hash_plugL l hl)
    · exact absurd h.symm (hash_plugL l' hl')
    · rfl
  named := by
    rintro l (hl | rfl)
    · exact world.named hl
    · rfl
  exp := by
    rintro l (hl | rfl) n
    · exact world.exp hl n
    · exact ⟨_, exported_img (by decide) _ _⟩
  rel := by
    rintro l (hl | rfl)
    · exact world.rel hl
    · exact ⟨_, relocs_img (by decide)⟩

theorem procL_ok : procL.Ok where
  world := worldL
  objs := fun l hl => Or.inl (proc_ok.objs l hl)
  nd := proc_ok.nd
  placed := proc_ok.placed
  cover := proc_ok.cover
  ne := proc_ok.ne

/-- The second plugin is loaded; the loader has bound its slot to its own bar. -/
def loadL : Load :=
  { libs := [plugL]
    mem := fun a => if a = 0x40000018 then some 0x40004000 else none
    wr := fun _ => none }

/-- Tool B wraps bar, which nothing defines yet; both plugins are loaded. -/
def opsL : List Op := [ .wrap [⟨nm "bar", 0x50b, 11⟩] (some B), .dlopen loadPlug, .dlopen loadL ]

theorem names_plugL : ∀ l, U l → l.name ≠ plugL.name := by
  rintro l (rfl | rfl | rfl) <;> decide +kernel

theorem loadPlug_okL (strict : Prop) : LoadsOk procL strict procL.seen [app, libc] loadPlug where
  objs := fun l hl => Or.inl ((loadPlug_ok strict).objs l hl)
  nd := (loadPlug_ok strict).nd
  again := (loadPlug_ok strict).again
  placed := (loadPlug_ok strict).placed
  old := (loadPlug_ok strict).old
  cover := (loadPlug_ok strict).cover
  cons := (loadPlug_ok strict).cons
  keep := (loadPlug_ok strict).keep

theorem loadL_ok (strict : Prop) :
    LoadsOk procL strict (seenWith procL.seen [plug]) [app, libc, plug] loadL where
  objs := by
    intro l hl
    simp only [loadL, List.mem_singleton] at hl
    exact Or.inr hl
  nd := by
    show [app.lm, libc.lm, plug.lm, plugL.lm].Nodup
    decide
  again := by
    intro l hl hs
    simp only [loadL, List.mem_singleton] at hl
    subst hl
    exfalso
    rcases hs with hs | hs
    · exact names_plugL _ (proc_ok.objs _ hs) rfl
    · rw [List.mem_singleton] at hs
      exact names_plugL plug (Or.inr (Or.inr rfl)) (congrArg Lib.name hs).symm
  placed := by
    have hn := names_plugL
    intro l hl o ho h1 h2
    rcases List.mem_append.1 hl with hl | hl <;> rcases List.mem_append.1 ho with ho | ho
    · exact placed libs_U l hl o ho h1 h2
    · simp only [loadL, List.mem_singleton] at ho
      subst ho
      exact absurd h1 (hn l (libs_U l hl))
    · simp only [loadL, List.mem_singleton] at hl
      subst hl
      exact absurd h1.symm (hn o (libs_U o ho))
    · simp only [loadL, List.mem_singleton] at hl ho
      rw [hl, ho]
  old := by intro l _ s _; simp [loadL]
  cover := by
    intro l hl s hs
    simp only [loadL, List.mem_singleton] at hl
    subst hl
    right
    rw [rl_plugL] at hs
    refine ⟨(0x40000000, 0x1000), by rw [show marksOf procL.env plugL = _ from marks_plugL]; simp, ?_⟩
    simp only [List.mem_cons, List.not_mem_nil, or_false] at hs
    rcases hs with rfl
    decide
  cons := by
    intro _ l hl l' hl' p hp q hq e
    rcases List.mem_append.1 hl with hl | hl <;> rcases List.mem_append.1 hl' with hl' | hl'
    · exact cons libs_U l hl l' hl' p hp q hq e
    · simp only [loadL, List.mem_singleton] at hl'
      subst hl'
      simp only [rl_plugL, List.mem_singleton] at hq
      subst hq
      rcases libs_U l hl with rfl | rfl | rfl
      · simp only [rl_app, List.mem_cons, List.not_mem_nil, or_false] at hp
        rcases hp with rfl | rfl | rfl | rfl <;> exact absurd e (by decide)
      · rw [rl_libc] at hp; cases hp
      · simp only [rl_plug, List.mem_singleton] at hp
        subst hp
        exact absurd e (by decide)
    · simp only [loadL, List.mem_singleton] at hl
      subst hl
      simp only [rl_plugL, List.mem_singleton] at hp
      subst hp
      rcases libs_U l' hl' with rfl | rfl | rfl
      · simp only [rl_app, List.mem_cons, List.not_mem_nil, or_false] at hq
        rcases hq with rfl | rfl | rfl | rfl <;> exact absurd e (by decide)
      · rw [rl_libc] at hq; cases hq
      · simp only [rl_plug, List.mem_singleton] at hq
        subst hq
        exact absurd e (by decide)
    · simp only [loadL, List.mem_singleton] at hl hl'
      subst hl; subst hl'
      simp only [rl_plugL, List.mem_singleton] at hp hq
      rw [hp, hq]
  keep := by
    intro _ l hl s hs
    simp only [List.mem_cons, List.not_mem_nil, or_false] at hl
    rcases hl with rfl | rfl | rfl
    · rw [rl_app] at hs
      simp only [List.mem_cons, List.not_mem_nil, or_false] at hs
      rcases hs with rfl | rfl | rfl | rfl <;> decide
    · rw [rl_libc] at hs; cases hs
    · rw [rl_plug] at hs
      simp only [List.mem_cons, List.not_mem_nil, or_false] at hs
      rcases hs with rfl
      decide

/-- The first plugin is unloaded afterwards. -/
theorem history_gone (strict : Prop) : History procL strict (opsL ++ [.unload deadPlug]) where
  honest := ⟨by decide +kernel, by
    intro u hu
    simp only [opsL, List.cons_append, List.nil_append, List.flatMap_cons, List.flatMap_nil, tableOf,
      List.append_nil, List.mem_cons, List.not_mem_nil, or_false] at hu
    subst hu; decide, envOk⟩
  loader := ⟨fun _ => dlopen_def, loadPlug_okL strict, loadL_ok strict, Or.inl rfl, trivial⟩
  cons := fun _ => cons proc_ok.objs
  filter := by intro _ f hf; simp [opsL] at hf
  main := fun _ => mainAlone_of ⟨fun h => absurd h (notMain (by decide +kernel)), trivial,
    trivial, trivial, trivial⟩
  short := fun _ => by decide

theorem history_local (strict : Prop) : History procL strict opsL := (history_gone strict).prefix

theorem reg_local : registered env opsL (nm "bar") = [⟨B, 0x50b, 11⟩] := by decide +kernel
theorem real_local : realAfter env [app, libc] opsL (nm "bar") = some 0x30004000 := by
  decide +kernel
theorem reg_gone : registered env (opsL ++ [.unload deadPlug]) (nm "bar") = [⟨B, 0x50b, 11⟩] := by
  decide +kernel
theorem libs_local : libsAfter [app, libc] opsL = [app, libc, plug, plugL] := rfl
theorem libs_gone : libsAfter [app, libc] (opsL ++ [.unload deadPlug]) = [app, libc, plugL] := rfl
theorem slot_plugL : (0x18, nm "bar") ∈ rlOf plugL := by rw [rl_plugL]; simp

/-! ### a tool in a library of its own, which is unloaded -/

/-- The library with tool B's wrappers. -/
def toolLib : Lib := obj 0x5000 "/lib/tool.so" 0 [] []

def UTool (l : Lib) : Prop := U l ∨ l = toolLib

def procTool : Process := { proc with U := UTool }

theorem rl_toolLib : rlOf toolLib = [] := rlOf_obj (by decide)

theorem hash_toolLib : ∀ l, U l → linkMapHash l ≠ linkMapHash toolLib := by
  rintro l (rfl | rfl | rfl) <;> decide +kernel

theorem names_toolLib : ∀ l, U l → l.name ≠ toolLib.name := by
  rintro l (rfl | rfl | rfl) <;> decide +kernel

theorem worldT : World env UTool where
  page48 := world.page48
  page64 := world.page64
  ident := by
    rintro l l' (hl | rfl) (hl' | rfl) h
    · exact world.ident hl hl' h
    · exact absurd h (hash_toolLib l hl)
    · exact absurd h.symm (hash_toolLib l' hl')
    · rfl
  named := by
    rintro l (hl | rfl)
    · exact world.named hl
    · rfl
  exp := by
    rintro l (hl | rfl) n
    · exact world.exp hl n
    · exact ⟨_, exported_img (by decide) _ _⟩
  rel := by
    rintro l (hl | rfl)
    · exact world.rel hl
    · exact ⟨_, relocs_img (by decide)⟩

theorem procTool_ok : procTool.Ok where
  world := worldT
  objs := fun l hl => Or.inl (proc_ok.objs l hl)
  nd := proc_ok.nd
  placed := proc_ok.placed
  cover := proc_ok.cover
  ne := proc_ok.ne

def loadTool : Load := { libs := [toolLib], mem := fun _ => none, wr := fun _ => none }
def deadTool (a : Addr) : Bool := decide (a = 0x5000)

/-- The tool's library is loaded, its tool wraps foo, and it is unloaded. -/
def opsTool : List Op :=
  [ .load loadTool, .wrap [⟨nm "foo", 0x50a, 10⟩] (some B), .unload deadTool ]

theorem app_libc_U : ∀ l ∈ [app, libc], U l := proc_ok.objs

theorem loadTool_ok (strict : Prop) : LoadsOk procTool strict procTool.seen [app, libc] loadTool where
  objs := by
    intro l hl
    simp only [loadTool, List.mem_singleton] at hl
    exact Or.inr hl
  nd := by
    show [app.lm, libc.lm, toolLib.lm].Nodup
    decide
  again := by
    intro l hl hs
    simp only [loadTool, List.mem_singleton] at hl
    subst hl
    exact absurd rfl (names_toolLib _ (proc_ok.objs _ hs))
  placed := by
    have hn := names_toolLib
    intro l hl o ho h1 h2
    rcases List.mem_append.1 hl with hl | hl <;> rcases List.mem_append.1 ho with ho | ho
    · exact placed app_libc_U l hl o ho h1 h2
    · simp only [loadTool, List.mem_singleton] at ho
      subst ho
      exact absurd h1 (hn l (app_libc_U l hl))
    · simp only [loadTool, List.mem_singleton] at hl
      subst hl
      exact absurd h1.symm (hn o (app_libc_U o ho))
    · simp only [loadTool, List.mem_singleton] at hl ho
      rw [hl, ho]
  old := by intro l _ s _; simp [loadTool]
  cover := by
    intro l hl s hs
    simp only [loadTool, List.mem_singleton] at hl
    subst hl
    rw [rl_toolLib] at hs; cases hs
  cons := by
    intro _ l hl l' hl' p hp q hq e
    rcases List.mem_append.1 hl with hl | hl <;> rcases List.mem_append.1 hl' with hl' | hl'
    · exact cons app_libc_U l hl l' hl' p hp q hq e
    · simp only [loadTool, List.mem_singleton] at hl'
      subst hl'
      rw [rl_toolLib] at hq; cases hq
    all_goals
      simp only [loadTool, List.mem_singleton] at hl
      subst hl
      rw [rl_toolLib] at hp; cases hp
  keep := by intro _ l _ s _; rfl

theorem dlopen_defT : firstDef (procTool.env.vdsoOf [app, libc, toolLib]) [app, libc, toolLib]
    (nm "dlopen") ≠ none := by decide +kernel

theorem history_tool (strict : Prop) : History procTool strict opsTool where
  honest := ⟨by decide +kernel, by
    intro u hu
    simp only [opsTool, List.flatMap_cons, List.flatMap_nil, tableOf, List.nil_append,
      List.append_nil, List.mem_cons, List.not_mem_nil, or_false] at hu
    subst hu; decide, envOk⟩
  loader := ⟨loadTool_ok strict, (fun h => by cases h), (fun _ => dlopen_defT), Or.inl rfl, trivial⟩
  cons := fun _ => cons proc_ok.objs
  filter := by intro _ f hf; simp [opsTool] at hf
  main := fun _ => mainAlone_of ⟨trivial, fun h => absurd h (notMain (by decide +kernel)), trivial,
    trivial⟩
  short := fun _ => by decide

theorem real_tool : realAfter env [app, libc] opsTool (nm "foo") = some 0x20004000 := by
  decide +kernel
theorem reg_tool : registered env opsTool (nm "foo") = [⟨B, 0x50a, 10⟩] := by decide +kernel
theorem libs_tool : libsAfter [app, libc] opsTool = [app, libc] := rfl

end Gotcha.Demo
