import Verif.Demo.Tests
/-
A process for the program of test/filter.
-/
namespace Gotcha.Demo
open Spec

def fprog : Lib := obj 0x1000 "/bin/test_filter" 0x10000000 [(nm "main", 0x4000)]
  [(0x18, nm "return_four"), (0x20, nm "return_five"), (0x28, nm "return_six")]

def fnum : Lib := obj 0x5000 "/lib/libnum3.so" 0x50000000
  [(nm "return_four", 0x4000), (nm "return_five", 0x5000), (nm "return_six", 0x6000)] []

theorem rl_fprog : rlOf fprog = [(0x18, nm "return_four"), (0x20, nm "return_five"), (0x28, nm "return_six")] :=
  rlOf_obj (by decide)
theorem rl_fnum : rlOf fnum = [] := rlOf_obj (by decide)
theorem marks_fprog : marksOf env fprog = [(0x10000000, 0x1000)] := by decide +kernel

def UF (l : Lib) : Prop := l = fprog ∨ l = fnum ∨ l = libc

def procF : Process where
  env := env
  U := UF
  P := P
  libs := [fprog, fnum, libc]
  mem := fun a => if a = 0x10000018 then 0x50004000 else if a = 0x10000020 then 0x50005000 else
    if a = 0x10000028 then 0x50006000 else 0
  wr := fun _ => false

theorem libsF_U : ∀ l ∈ [fprog, fnum, libc], UF l := by
  intro l hl
  simp only [List.mem_cons, List.not_mem_nil, or_false] at hl
  exact hl

theorem onlyF : ∀ l, UF l → ∀ x ∈ rlOf l, l = fprog := by
  rintro l (rfl | rfl | rfl) x hx
  · rfl
  · rw [rl_fnum] at hx; cases hx
  · rw [rl_libc] at hx; cases hx

theorem placedF {L : List Lib} (h : ∀ l ∈ L, UF l) : Placed L := by
  have key : ∀ l, UF l → ∀ o, UF o → l.name = o.name → l = o := by
    rintro l (rfl | rfl | rfl) o (rfl | rfl | rfl) hn <;> first
      | rfl
      | exact absurd hn (by decide +kernel)
  intro l hl o ho hn _
  rw [key l (h l hl) o (h o ho) hn]

theorem consF {L : List Lib} (h : ∀ l ∈ L, UF l) : SlotCons L := by
  intro l hl l' hl' x hx y hy e
  obtain rfl := onlyF l (h l hl) x hx
  obtain rfl := onlyF l' (h l' hl') y hy
  rw [rl_fprog] at hx hy
  simp only [List.mem_cons, List.not_mem_nil, or_false] at hx hy
  rcases hx with rfl | rfl | rfl <;> rcases hy with rfl | rfl | rfl <;> first
    | rfl
    | exact absurd e (by decide)

theorem procF_ok : procF.Ok where
  world := {
    page48 := by decide
    page64 := by decide
    ident := by
      rintro l l' (rfl | rfl | rfl) (rfl | rfl | rfl) h <;> first
        | rfl
        | exact absurd h (by decide +kernel)
    named := by rintro l (rfl | rfl | rfl) <;> rfl
    exp := by
      rintro l (rfl | rfl | rfl) n
      all_goals exact ⟨_, exported_img (by decide) _ _⟩
    rel := by
      rintro l (rfl | rfl | rfl)
      all_goals exact ⟨_, relocs_img (by decide)⟩ }
  objs := libsF_U
  nd := by show [fprog.lm, fnum.lm, libc.lm].Nodup; decide
  placed := placedF libsF_U
  cover := by
    intro l hl s hs
    obtain rfl := onlyF l (libsF_U l hl) s hs
    refine Or.inr ⟨(0x10000000, 0x1000), by show _ ∈ marksOf env fprog; rw [marks_fprog]; simp, ?_⟩
    rw [rl_fprog] at hs
    simp only [List.mem_cons, List.not_mem_nil, or_false] at hs
    rcases hs with rfl | rfl | rfl <;> decide
  ne := by simp [procF]

theorem dlopenF : firstDef (procF.env.vdsoOf procF.libs) procF.libs (nm "dlopen") ≠ none := by decide +kernel

end Gotcha.Demo
