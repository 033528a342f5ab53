import Verif.Demo.Facts
import Verif.Model.Kernel
import Verif.Spec.Auxv
/-
A process with a vdso, in which the program may or may not have its dynamic section where the vdso has it.
-/
namespace Gotcha.Demo
open Spec

/-- A program that defines and calls foo; its dynamic section is at offset 0x3e0 or 0xdc8. -/
def kapp (d : Bool) : Lib := { obj 0x1000 "/bin/app" 0x10000000 [(nm "foo", 0x4000)]
  [(0x18, nm "foo")] with ld := if d then 0x100003e0 else 0x10000dc8 }

def kvdso : Lib := { obj 0x6000 "linux-vdso.so.1" 0x60000000 [(nm "foo", 0x4000)] [] with ld := 0x600003e0 }

/-- The auxiliary vector and the program headers of the vdso image: PT_LOAD, PT_DYNAMIC at 0x3e0. -/
def kernel : Auxv.Files where
  auxv := some ⟨Spec.Auxv.auxBytes [(33, 0x60000000), (6, 4096)] [], []⟩
  mapsFile := none
  image a := if a = 0x60000000 then [⟨1, 0⟩, ⟨2, 0x3e0⟩] else []

/-- What detection finds on a link map. -/
def kdetect (libs : List Lib) : Option Addr :=
  ((libs.map Auxv.mapOf).find? fun m => m.name == some (nm "linux-vdso.so") ||
    m.name == some (nm "linux-gate.so")).map (·.lm) |>.or
  (((libs.map Auxv.mapOf).find? fun m => m.addr + 0x3e0 == m.ld).map (·.lm))

def envK : Env := { env with vdsoOf := kdetect }

def UK (d : Bool) (l : Lib) : Prop := l = kapp d ∨ l = kvdso ∨ l = libc

theorem rl_kapp (d : Bool) : rlOf (kapp d) = [(0x18, nm "foo")] := by
  have : rlOf (kapp d) = rlOf (obj 0x1000 "/bin/app" 0x10000000 [(nm "foo", 0x4000)] [(0x18, nm "foo")]) := rfl
  rw [this]
  exact rlOf_obj (by decide)
theorem rl_kvdso : rlOf kvdso = [] := by
  have : rlOf kvdso = rlOf (obj 0x6000 "linux-vdso.so.1" 0x60000000 [(nm "foo", 0x4000)] []) := rfl
  rw [this]
  exact rlOf_obj (by decide)
theorem marks_kapp (d : Bool) : marksOf envK (kapp d) = [(0x10000000, 0x1000)] := by
  cases d <;> decide +kernel

def procK (d : Bool) : Process where
  env := envK
  U := UK d
  P := P
  libs := [kapp d, kvdso, libc]
  mem := fun _ => 0
  wr := fun _ => false

theorem libsK_U (d : Bool) : ∀ l ∈ [kapp d, kvdso, libc], UK d l := by
  intro l hl
  simp only [List.mem_cons, List.not_mem_nil, or_false] at hl
  exact hl

theorem namesK (d : Bool) : (kapp d).name ≠ kvdso.name ∧ (kapp d).name ≠ libc.name ∧
    kvdso.name ≠ libc.name := by
  cases d <;> decide +kernel

theorem hashK (d : Bool) : linkMapHash (kapp d) ≠ linkMapHash kvdso ∧
    linkMapHash (kapp d) ≠ linkMapHash libc ∧ linkMapHash kvdso ≠ linkMapHash libc := by
  cases d <;> decide +kernel

theorem procK_ok (d : Bool) : (procK d).Ok where
  world := {
    page48 := by show 48 ≤ 4096; decide
    page64 := by show BitVec.ofNat 64 4096 ≠ 0; decide
    ident := by
      rintro l l' (rfl | rfl | rfl) (rfl | rfl | rfl) h <;> first
        | rfl
        | exact absurd h (hashK d).1
        | exact absurd h (hashK d).2.1
        | exact absurd h (hashK d).2.2
        | exact absurd h.symm (hashK d).1
        | exact absurd h.symm (hashK d).2.1
        | exact absurd h.symm (hashK d).2.2
    named := by rintro l (rfl | rfl | rfl) <;> rfl
    exp := by
      rintro l (rfl | rfl | rfl) n
      all_goals exact ⟨_, exported_img (by decide) _ _⟩
    rel := by
      rintro l (rfl | rfl | rfl)
      all_goals exact ⟨_, relocs_img (by decide)⟩ }
  objs := libsK_U d
  nd := by show [(0x1000 : Addr), 0x6000, 0x2000].Nodup; decide
  placed := by
    intro l hl o ho hn _
    rcases libsK_U d l hl with rfl | rfl | rfl <;> rcases libsK_U d o ho with rfl | rfl | rfl <;> first
      | rfl
      | exact absurd hn (namesK d).1
      | exact absurd hn (namesK d).2.1
      | exact absurd hn (namesK d).2.2
      | exact absurd hn.symm (namesK d).1
      | exact absurd hn.symm (namesK d).2.1
      | exact absurd hn.symm (namesK d).2.2
  cover := by
    intro l hl s hs
    rcases libsK_U d l hl with rfl | rfl | rfl
    · refine Or.inr ?_
      rw [rl_kapp] at hs
      refine ⟨(0x10000000, 0x1000), by show _ ∈ marksOf envK (kapp d); rw [marks_kapp]; simp, ?_⟩
      simp only [List.mem_cons, List.not_mem_nil, or_false] at hs
      subst hs
      cases d <;> decide
    · rw [rl_kvdso] at hs; cases hs
    · rw [rl_libc] at hs; cases hs
  ne := by simp [procK]

def opsK : List Op := [.wrap [⟨nm "foo", 0x50a, 10⟩] (some B)]

theorem historyK (d : Bool) : History (procK d) True opsK where
  honest := ⟨show (List.map UBinding.handle (List.flatMap tableOf opsK) ++
      [env.hDlopen, env.hDlsym, env.hLibcMain, env.hMain]).Nodup by decide +kernel, by
      intro u hu
      simp only [opsK, List.flatMap_cons, List.flatMap_nil, tableOf,
        List.append_nil, List.mem_cons, List.not_mem_nil, or_false] at hu
      subst hu
      show P 0x50a = some 10; decide, ⟨envOk.1, envOk.2, envOk.3, envOk.4, envOk.5⟩⟩
  loader := ⟨fun _ => by
    show firstDef (envK.vdsoOf [kapp d, kvdso, libc]) [kapp d, kvdso, libc] (nm "dlopen") ≠ none
    cases d <;> decide +kernel, trivial⟩
  cons := by
    intro _ l hl l' hl' x hx y hy e
    have key : ∀ l ∈ [kapp d, kvdso, libc], ∀ x ∈ rlOf l, x = (0x18, nm "foo") := by
      intro l hl x hx
      rcases libsK_U d l hl with rfl | rfl | rfl
      · rw [rl_kapp] at hx; exact List.mem_singleton.1 hx
      · rw [rl_kvdso] at hx; cases hx
      · rw [rl_libc] at hx; cases hx
    rw [key l hl x hx, key l' hl' y hy]
  filter := by
    intro _ f hf
    simp [opsK] at hf
  main := by
    intro _
    refine mainAlone_of ⟨?_, trivial⟩
    rintro ⟨u, hu, e⟩
    simp only [List.mem_cons, List.not_mem_nil, or_false] at hu
    subst hu
    exact absurd e (show nm "foo" ≠ nm "main" by decide +kernel)
  short := fun _ => by decide

end Gotcha.Demo
