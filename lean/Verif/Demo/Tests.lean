import Verif.Demo.Facts
import Verif.Model.Tests
/-
Processes for the programs of the test suite.
-/
namespace Gotcha.Demo
open Spec

def tprog : Lib := obj 0x1000 "/bin/app" 0x10000000 [(nm "main", 0x4000)]
  [(0x18, nm "retX"), (0x20, nm "return_four"), (0x28, nm "foo")]

def tlib : Lib := obj 0x5000 "/lib/libtest.so" 0x50000000
  [(nm "retX", 0x4000), (nm "return_four", 0x5000), (nm "foo", 0x6000), (nm "bar", 0x7000)] []

def timpl : Lib := obj 0x6000 "/lib/libimpl.so" 0x60000000 [(nm "foo", 0x4000), (nm "bar", 0x5000)] []

def dprog : Lib := obj 0x1000 "/bin/test_dlopen" 0x10000000 [(nm "main", 0x4000), (nm "return_five", 0x5000)]
  [(0x18, nm "dlsym")]

def dnum : Lib := obj 0x7000 "/lib/libnum.so" 0x70000000 [(nm "return_four", 0x4000), (nm "test_return_five", 0x5000)]
  [(0x18, nm "return_five")]

def dnum2 : Lib := obj 0x8000 "/lib/libnum2.so" 0x80000000 [(nm "return_four", 0x4000), (nm "return_six", 0x5000)] []

theorem rl_tprog : rlOf tprog = [(0x18, nm "retX"), (0x20, nm "return_four"), (0x28, nm "foo")] :=
  rlOf_obj (by decide)
theorem rl_tlib : rlOf tlib = [] := rlOf_obj (by decide)
theorem rl_timpl : rlOf timpl = [] := rlOf_obj (by decide)
theorem rl_dprog : rlOf dprog = [(0x18, nm "dlsym")] := rlOf_obj (by decide)
theorem rl_dnum : rlOf dnum = [(0x18, nm "return_five")] := rlOf_obj (by decide)
theorem rl_dnum2 : rlOf dnum2 = [] := rlOf_obj (by decide)
theorem marks_tprog : marksOf env tprog = [(0x10000000, 0x1000)] := by decide +kernel
theorem marks_dprog : marksOf env dprog = [(0x10000000, 0x1000)] := by decide +kernel
theorem marks_dnum : marksOf env dnum = [(0x70000000, 0x1000)] := by decide +kernel

def UT (l : Lib) : Prop := l = tprog ∨ l = tlib ∨ l = libc ∨ l = timpl

/-- The process of the tests stack, ppc_stress_multi_module, function_ptr, priority and dispatcher. -/
def procT : Process where
  env := env
  U := UT
  P := P
  libs := [tprog, tlib, libc]
  mem := fun a => if a = 0x10000020 then 0x50005000 else 0
  wr := fun _ => false

theorem libsT_U : ∀ l ∈ [tprog, tlib, libc] ++ [timpl], UT l := by
  intro l hl
  simp only [List.cons_append, List.nil_append, List.mem_cons, List.not_mem_nil, or_false] at hl
  exact hl

theorem libsT_U' : ∀ l ∈ [tprog, tlib, libc], UT l := fun l hl => libsT_U l (by
  simp only [List.cons_append, List.nil_append, List.mem_cons, List.not_mem_nil, or_false] at hl ⊢
  rcases hl with h | h | h <;> simp [h])

theorem placedT {L : List Lib} (h : ∀ l ∈ L, UT l) : Placed L := by
  have key : ∀ l, UT l → ∀ o, UT o → l.name = o.name → l = o := by
    rintro l (rfl | rfl | rfl | rfl) o (rfl | rfl | rfl | rfl) hn <;> first
      | rfl
      | exact absurd hn (by decide +kernel)
  intro l hl o ho hn _
  rw [key l (h l hl) o (h o ho) hn]

theorem onlyT : ∀ l, UT l → ∀ x ∈ rlOf l, l = tprog := by
  rintro l (rfl | rfl | rfl | rfl) x hx
  · rfl
  · rw [rl_tlib] at hx; cases hx
  · rw [rl_libc] at hx; cases hx
  · rw [rl_timpl] at hx; cases hx

theorem consT {L : List Lib} (h : ∀ l ∈ L, UT l) : SlotCons L := by
  intro l hl l' hl' x hx y hy e
  obtain rfl := onlyT l (h l hl) x hx
  obtain rfl := onlyT l' (h l' hl') y hy
  rw [rl_tprog] at hx hy
  simp only [List.mem_cons, List.not_mem_nil, or_false] at hx hy
  rcases hx with rfl | rfl | rfl <;> rcases hy with rfl | rfl | rfl <;> first
    | rfl
    | exact absurd e (by decide)

theorem procT_ok : procT.Ok where
  world := {
    page48 := by decide
    page64 := by decide
    ident := by
      rintro l l' (rfl | rfl | rfl | rfl) (rfl | rfl | rfl | rfl) h <;> first
        | rfl
        | exact absurd h (by decide +kernel)
    named := by rintro l (rfl | rfl | rfl | rfl) <;> rfl
    exp := by
      rintro l (rfl | rfl | rfl | rfl) n
      all_goals exact ⟨_, exported_img (by decide) _ _⟩
    rel := by
      rintro l (rfl | rfl | rfl | rfl)
      all_goals exact ⟨_, relocs_img (by decide)⟩ }
  objs := libsT_U'
  nd := by show [tprog.lm, tlib.lm, libc.lm].Nodup; decide
  placed := placedT libsT_U'
  cover := by
    intro l hl s hs
    obtain rfl := onlyT l (libsT_U' l hl) s hs
    refine Or.inr ⟨(0x10000000, 0x1000), by show _ ∈ marksOf env tprog; rw [marks_tprog]; simp, ?_⟩
    rw [rl_tprog] at hs
    simp only [List.mem_cons, List.not_mem_nil, or_false] at hs
    rcases hs with rfl | rfl | rfl <;> decide
  ne := by simp [procT]

theorem mainAlone_none {ops : List Op} (h : ∀ o ∈ ops, ¬ hasMain (tableOf o)) : MainAlone ops := by
  rintro pre tbl tool post rfl hm
  exact absurd hm (h (.wrap tbl tool) (by simp))

theorem historyT {ops : List Op} (hn : ((ops.flatMap tableOf).map UBinding.handle ++ [1, 2, 3, 4]).Nodup)
    (hp : ∀ u ∈ ops.flatMap tableOf, P u.wrapper = some u.handle) (hf : ∀ f, Op.setFilter f ∉ ops)
    (hm : ∀ u ∈ ops.flatMap tableOf, u.name ≠ nm "main")
    (hl : LoaderOk procT True procT.seen procT.libs false ops) (hs : ops.length + 3 < 2 ^ 32) :
    History procT True ops where
  honest := ⟨hn, hp, envOk⟩
  loader := hl
  cons := fun _ => consT libsT_U'
  filter := fun _ f h => absurd h (hf f)
  main := fun _ => mainAlone_none fun o ho ⟨u, hu, e⟩ => hm u (List.mem_flatMap.2 ⟨o, ho, hu⟩) e
  short := fun _ => hs

theorem dlopenT : firstDef (procT.env.vdsoOf procT.libs) procT.libs (nm "dlopen") ≠ none := by decide +kernel

/-- Loading libimpl. -/
def loadT : Load := { libs := [timpl], mem := fun _ => none, wr := fun _ => none }

theorem loadT_ok : LoadsOk procT True procT.seen procT.libs loadT where
  objs := by
    intro l hl
    simp only [loadT, List.mem_singleton] at hl
    exact Or.inr (Or.inr (Or.inr hl))
  nd := by show [tprog.lm, tlib.lm, libc.lm, timpl.lm].Nodup; decide
  again := by
    intro l hl
    simp only [loadT, List.mem_singleton] at hl
    subst hl
    intro hl
    simp only [Process.seen, procT, List.mem_cons, List.not_mem_nil, or_false] at hl
    rcases hl with hl | hl | hl <;> exact absurd (congrArg Lib.lm hl) (by decide)
  placed := placedT libsT_U
  old := by intro l _ s _; simp [loadT]
  cover := by
    intro l hl s hs
    simp only [loadT, List.mem_singleton] at hl
    subst hl
    rw [rl_timpl] at hs; cases hs
  cons := fun _ => consT libsT_U
  keep := by intro _ l _ s _; rfl

/-! ### test/dlopen -/

def UD (l : Lib) : Prop := l = dprog ∨ l = libc ∨ l = dnum ∨ l = dnum2

def procD : Process where
  env := env
  U := UD
  P := P
  libs := [dprog, libc]
  mem := fun _ => 0
  wr := fun _ => false

theorem libsD_U : ∀ l ∈ [dprog, libc, dnum, dnum2], UD l := by
  intro l hl
  simp only [List.mem_cons, List.not_mem_nil, or_false] at hl
  exact hl

theorem libsD_U1 : ∀ l ∈ [dprog, libc, dnum], UD l := fun l hl => libsD_U l (by
  simp only [List.mem_cons, List.not_mem_nil, or_false] at hl ⊢
  rcases hl with h | h | h <;> simp [h])

theorem libsD_U0 : ∀ l ∈ [dprog, libc], UD l := fun l hl => libsD_U l (by
  simp only [List.mem_cons, List.not_mem_nil, or_false] at hl ⊢
  rcases hl with h | h <;> simp [h])

theorem placedD {L : List Lib} (h : ∀ l ∈ L, UD l) : Placed L := by
  have key : ∀ l, UD l → ∀ o, UD o → l.name = o.name → l = o := by
    rintro l (rfl | rfl | rfl | rfl) o (rfl | rfl | rfl | rfl) hn <;> first
      | rfl
      | exact absurd hn (by decide +kernel)
  intro l hl o ho hn _
  rw [key l (h l hl) o (h o ho) hn]

theorem onlyD : ∀ l, UD l → ∀ x ∈ rlOf l, (l = dprog ∧ x = (0x18, nm "dlsym")) ∨
    (l = dnum ∧ x = (0x18, nm "return_five")) := by
  rintro l (rfl | rfl | rfl | rfl) x hx
  · rw [rl_dprog] at hx; exact Or.inl ⟨rfl, List.mem_singleton.1 hx⟩
  · rw [rl_libc] at hx; cases hx
  · rw [rl_dnum] at hx; exact Or.inr ⟨rfl, List.mem_singleton.1 hx⟩
  · rw [rl_dnum2] at hx; cases hx

theorem consD {L : List Lib} (h : ∀ l ∈ L, UD l) : SlotCons L := by
  intro l hl l' hl' x hx y hy e
  rcases onlyD l (h l hl) x hx with ⟨rfl, rfl⟩ | ⟨rfl, rfl⟩ <;>
    rcases onlyD l' (h l' hl') y hy with ⟨rfl, rfl⟩ | ⟨rfl, rfl⟩ <;> first
    | rfl
    | exact absurd e (by decide)

theorem coverD : ∀ l, UD l → ∀ s ∈ rlOf l, markedBy env l (l.addr + s.1) := by
  intro l hl s hs
  rcases onlyD l hl s hs with ⟨rfl, rfl⟩ | ⟨rfl, rfl⟩
  · exact ⟨(0x10000000, 0x1000), by rw [marks_dprog]; simp, by decide⟩
  · exact ⟨(0x70000000, 0x1000), by rw [marks_dnum]; simp, by decide⟩

theorem procD_ok : procD.Ok where
  world := {
    page48 := by decide
    page64 := by decide
    ident := by
      rintro l l' (rfl | rfl | rfl | rfl) (rfl | rfl | rfl | rfl) h <;> first
        | rfl
        | exact absurd h (by decide +kernel)
    named := by rintro l (rfl | rfl | rfl | rfl) <;> rfl
    exp := by
      rintro l (rfl | rfl | rfl | rfl) n
      all_goals exact ⟨_, exported_img (by decide) _ _⟩
    rel := by
      rintro l (rfl | rfl | rfl | rfl)
      all_goals exact ⟨_, relocs_img (by decide)⟩ }
  objs := libsD_U0
  nd := by show [dprog.lm, libc.lm].Nodup; decide
  placed := placedD libsD_U0
  cover := fun l hl s hs => Or.inr (coverD l (libsD_U0 l hl) s hs)
  ne := by simp [procD]

def loadD1 : Load := { libs := [dnum], mem := fun _ => none, wr := fun _ => none }
def loadD2 : Load := { libs := [dnum2], mem := fun _ => none, wr := fun _ => none }

theorem loadD1_ok : LoadsOk procD True procD.seen procD.libs loadD1 where
  objs := by
    intro l hl
    simp only [loadD1, List.mem_singleton] at hl
    exact Or.inr (Or.inr (Or.inl hl))
  nd := by show [dprog.lm, libc.lm, dnum.lm].Nodup; decide
  again := by
    intro l hl
    simp only [loadD1, List.mem_singleton] at hl
    subst hl
    intro hl
    simp only [Process.seen, procD, List.mem_cons, List.not_mem_nil, or_false] at hl
    rcases hl with hl | hl <;> exact absurd (congrArg Lib.lm hl) (by decide)
  placed := placedD libsD_U1
  old := by intro l _ s _; simp [loadD1]
  cover := by
    intro l hl s hs
    simp only [loadD1, List.mem_singleton] at hl
    subst hl
    exact Or.inr (coverD _ (Or.inr (Or.inr (Or.inl rfl))) s hs)
  cons := fun _ => consD libsD_U1
  keep := by intro _ l _ s _; rfl

theorem loadD2_ok : LoadsOk procD True (seenWith procD.seen loadD1.libs) (procD.libs ++ loadD1.libs) loadD2 where
  objs := by
    intro l hl
    simp only [loadD2, List.mem_singleton] at hl
    exact Or.inr (Or.inr (Or.inr hl))
  nd := by show [dprog.lm, libc.lm, dnum.lm, dnum2.lm].Nodup; decide
  again := by
    intro l hl
    simp only [loadD2, List.mem_singleton] at hl
    subst hl
    intro hl
    simp only [seenWith, Process.seen, procD, loadD1, List.mem_cons, List.not_mem_nil, or_false] at hl
    rcases hl with (hl | hl) | hl <;> exact absurd (congrArg Lib.lm hl) (by decide)
  placed := placedD libsD_U
  old := by intro l _ s _; simp [loadD2]
  cover := by
    intro l hl s hs
    simp only [loadD2, List.mem_singleton] at hl
    subst hl
    rw [rl_dnum2] at hs; cases hs
  cons := fun _ => consD libsD_U
  keep := by intro _ l _ s _; rfl

def opsD : List Op := [Tests.dlWrap 0x50a 0x50b 0x50c 10 11 12, .dlopen loadD1, .dlopen loadD2]

theorem historyD : History procD True opsD where
  honest := ⟨show (List.map UBinding.handle (List.flatMap tableOf opsD) ++
      [env.hDlopen, env.hDlsym, env.hLibcMain, env.hMain]).Nodup by decide +kernel, by
      intro u hu
      simp only [opsD, Tests.dlWrap, List.flatMap_cons, List.flatMap_nil, tableOf, List.append_nil,
        List.mem_cons, List.not_mem_nil, or_false] at hu
      rcases hu with rfl | rfl | rfl
      · show P 0x50a = some 10; decide
      · show P 0x50b = some 11; decide
      · show P 0x50c = some 12; decide, envOk⟩
  loader := ⟨fun _ => by show firstDef none [dprog, libc] (nm "dlopen") ≠ none; decide +kernel, loadD1_ok, loadD2_ok,
    trivial⟩
  cons := fun _ => consD libsD_U0
  filter := by intro _ f hf; simp [opsD, Tests.dlWrap] at hf
  main := by
    intro _
    refine mainAlone_none ?_
    rintro o ho ⟨u, hu, e⟩
    simp only [opsD, List.mem_cons, List.not_mem_nil, or_false] at ho
    rcases ho with rfl | rfl | rfl
    · simp only [Tests.dlWrap, tableOf, List.mem_cons, List.not_mem_nil, or_false] at hu
      rcases hu with rfl | rfl | rfl
      · exact absurd e (show nm "return_four" ≠ nm "main" by decide +kernel)
      · exact absurd e (show nm "return_five" ≠ nm "main" by decide +kernel)
      · exact absurd e (show nm "return_six" ≠ nm "main" by decide +kernel)
    · cases hu
    · cases hu
  short := fun _ => by decide

end Gotcha.Demo
