import Verif.Demo.Facts
import Verif.Model.Minimal
/-
The process of the minimal example.
-/
namespace Gotcha.Demo
open Spec

def mprog : Lib := obj 0x1000 "/bin/symbolLookup" 0x10000000
  [(nm "main", 0x4000)]
  [(0x18, nm "retX"), (0x20, nm "sample_init"), (0x28, nm "__libc_start_main")]

def msample : Lib := obj 0x5000 "/lib/libsampleLib.so" 0x50000000
  [(nm "sample_init", 0x3000), (nm "retX", 0x4000), (nm "dogRetX", 0x5000)] []

def UM (l : Lib) : Prop := l = mprog ∨ l = msample ∨ l = libc

theorem rl_mprog : rlOf mprog = [(0x18, nm "retX"), (0x20, nm "sample_init"),
    (0x28, nm "__libc_start_main")] := rlOf_obj (by decide)
theorem rl_msample : rlOf msample = [] := rlOf_obj (by decide)
theorem marks_mprog : marksOf env mprog = [(0x10000000, 0x1000)] := by decide +kernel

def procM : Process where
  env := env
  U := UM
  P := P
  libs := [mprog, msample, libc]
  mem := fun _ => 0
  wr := fun _ => false

theorem libsM_U : ∀ l ∈ [mprog, msample, libc], UM l := by
  intro l hl
  simp only [List.mem_cons, List.not_mem_nil, or_false] at hl
  exact hl

theorem namesM : mprog.name ≠ msample.name ∧ mprog.name ≠ libc.name ∧ msample.name ≠ libc.name := by
  decide +kernel

theorem procM_ok : procM.Ok where
  world := {
    page48 := by decide
    page64 := by decide
    ident := by
      rintro l l' (rfl | rfl | rfl) (rfl | rfl | rfl) h <;> first
        | rfl
        | exact absurd h (by decide +kernel)
    named := by rintro l (rfl | rfl | rfl) <;> rfl
    exp := by
      rintro l (rfl | rfl | rfl) n
      all_goals exact ⟨_, exported_img (by decide) _ _⟩
    rel := by
      rintro l (rfl | rfl | rfl)
      all_goals exact ⟨_, relocs_img (by decide)⟩ }
  objs := libsM_U
  nd := by show [mprog.lm, msample.lm, libc.lm].Nodup; decide
  placed := by
    intro l hl o ho hn _
    rcases libsM_U l hl with rfl | rfl | rfl <;> rcases libsM_U o ho with rfl | rfl | rfl <;> first
      | rfl
      | exact absurd hn namesM.1
      | exact absurd hn namesM.2.1
      | exact absurd hn namesM.2.2
      | exact absurd hn.symm namesM.1
      | exact absurd hn.symm namesM.2.1
      | exact absurd hn.symm namesM.2.2
  cover := by
    intro l hl s hs
    rcases libsM_U l hl with rfl | rfl | rfl
    · refine Or.inr ?_
      rw [rl_mprog] at hs
      refine ⟨(0x10000000, 0x1000), by show _ ∈ marksOf env mprog; rw [marks_mprog]; simp, ?_⟩
      simp only [List.mem_cons, List.not_mem_nil, or_false] at hs
      rcases hs with rfl | rfl | rfl <;> decide
    · rw [rl_msample] at hs; cases hs
    · rw [rl_libc] at hs; cases hs
  ne := by simp [procM]

def opsM : List Op := [Minimal.sampleInit 0x50a 10]

theorem historyM : History procM True opsM where
  honest := ⟨show (List.map UBinding.handle (List.flatMap tableOf opsM) ++
      [env.hDlopen, env.hDlsym, env.hLibcMain, env.hMain]).Nodup by decide +kernel, by
      intro u hu
      simp only [opsM, Minimal.sampleInit, Minimal.bindings, List.flatMap_cons, List.flatMap_nil, tableOf,
        List.append_nil, List.mem_cons, List.not_mem_nil, or_false] at hu
      subst hu
      show P 0x50a = some 10; decide, envOk⟩
  loader := ⟨fun _ => by show firstDef none [mprog, msample, libc] (nm "dlopen") ≠ none; decide +kernel,
    trivial⟩
  cons := by
    intro _ l hl l' hl' x hx y hy e
    have key : ∀ l ∈ [mprog, msample, libc], ∀ x ∈ rlOf l, l = mprog := by
      intro l hl x hx
      rcases libsM_U l hl with rfl | rfl | rfl
      · rfl
      · rw [rl_msample] at hx; cases hx
      · rw [rl_libc] at hx; cases hx
    obtain rfl := key l hl x hx
    obtain rfl := key l' hl' y hy
    rw [rl_mprog] at hx hy
    simp only [List.mem_cons, List.not_mem_nil, or_false] at hx hy
    rcases hx with rfl | rfl | rfl <;> rcases hy with rfl | rfl | rfl <;> first
      | rfl
      | exact absurd e (by decide)
  filter := by
    intro _ f hf
    simp [opsM, Minimal.sampleInit] at hf
  main := by
    intro _
    refine mainAlone_of ⟨?_, trivial⟩
    rintro ⟨u, hu, e⟩
    simp only [Minimal.bindings, List.mem_cons, List.not_mem_nil, or_false] at hu
    subst hu
    exact absurd e (show nm "retX" ≠ nm "main" by decide +kernel)
  short := fun _ => by decide

end Gotcha.Demo
