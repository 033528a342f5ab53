import Verif.Demo.Tests
import Verif.Model.Hammer
/-
A process for the test hammer, with X = Y = 1 as in test/hammer/CMakeLists.txt.
-/
namespace Gotcha.Demo
open Spec Tests

def fnName (s : String) (a b : Nat) : Name := nm s ++ [UInt8.ofNat (48 + a), UInt8.ofNat (48 + b)]

def fnOff (a b : Nat) : Addr := BitVec.ofNat 64 (16 * a + 8 * b)

def hinfo (s : String) (h : Nat) : Info where
  name := fnName s
  wrapper a b := BitVec.ofNat 64 (0x500 + h + 2 * a + b)
  handle a b := h + 2 * a + b

def hmult : Info := hinfo "Mult" 16
def hadd : Info := hinfo "Add" 32

def hslots : List (Addr × Name) :=
  (pairs 1 1).map (fun q => (0x18 + fnOff q.1 q.2, fnName "Mult" q.1 q.2)) ++
  (pairs 1 1).map (fun q => (0x58 + fnOff q.1 q.2, fnName "Add" q.1 q.2))

def href : Lib := obj 0x1000 "/lib/libref1_1.so" 0x10000000 [(nm "main", 0x4000)] hslots

def hmath : Lib := obj 0x5000 "/lib/libmath.so" 0x50000000
  ((pairs 1 1).map (fun q => (fnName "Mult" q.1 q.2, 0x4000 + fnOff q.1 q.2)) ++
    (pairs 1 1).map (fun q => (fnName "Add" q.1 q.2, 0x5000 + fnOff q.1 q.2))) []

theorem rl_href : rlOf href = hslots := rlOf_obj (by decide)
theorem rl_hmath : rlOf hmath = [] := rlOf_obj (by decide)
theorem marks_href : marksOf env href = [(0x10000000, 0x1000)] := by decide +kernel

def UH (l : Lib) : Prop := l = href ∨ l = hmath ∨ l = libc

def procH : Process where
  env := env
  U := UH
  P := P
  libs := [href, hmath, libc]
  mem := fun a => if 0x10000058 ≤ a.toNat then a - 0x10000058 + 0x50005000 else a - 0x10000018 + 0x50004000
  wr := fun _ => false

theorem libsH_U : ∀ l ∈ [href, hmath, libc], UH l := by
  intro l hl
  simp only [List.mem_cons, List.not_mem_nil, or_false] at hl
  exact hl

theorem placedH {L : List Lib} (h : ∀ l ∈ L, UH l) : Placed L := by
  have key : ∀ l, UH l → ∀ o, UH o → l.name = o.name → l = o := by
    rintro l (rfl | rfl | rfl) o (rfl | rfl | rfl) hn <;> first
      | rfl
      | exact absurd hn (by decide +kernel)
  intro l hl o ho hn _
  rw [key l (h l hl) o (h o ho) hn]

theorem onlyH : ∀ l, UH l → ∀ x ∈ rlOf l, l = href := by
  rintro l (rfl | rfl | rfl) x hx
  · rfl
  · rw [rl_hmath] at hx; cases hx
  · rw [rl_libc] at hx; cases hx

theorem hslots_cons : ∀ x ∈ hslots, ∀ y ∈ hslots, href.addr + x.1 = href.addr + y.1 → x.2 = y.2 := by
  decide +kernel

theorem hslots_marked : ∀ x ∈ hslots, (0x10000000 : Addr).toNat ≤ (href.addr + x.1).toNat ∧
    (href.addr + x.1).toNat < (0x10000000 : Addr).toNat + (0x1000 : Addr).toNat := by
  decide +kernel

theorem consH {L : List Lib} (h : ∀ l ∈ L, UH l) : SlotCons L := by
  intro l hl l' hl' x hx y hy e
  obtain rfl := onlyH l (h l hl) x hx
  obtain rfl := onlyH l' (h l' hl') y hy
  rw [rl_href] at hx hy
  exact hslots_cons x hx y hy e

theorem procH_ok : procH.Ok where
  world := {
    page48 := by decide
    page64 := by decide
    ident := by
      rintro l l' (rfl | rfl | rfl) (rfl | rfl | rfl) h <;> first
        | rfl
        | exact absurd h (by decide +kernel)
    named := by rintro l (rfl | rfl | rfl) <;> rfl
    exp := by
      rintro l (rfl | rfl | rfl) n
      all_goals exact ⟨_, exported_img (by decide) _ _⟩
    rel := by
      rintro l (rfl | rfl | rfl)
      all_goals exact ⟨_, relocs_img (by decide)⟩ }
  objs := libsH_U
  nd := by show [href.lm, hmath.lm, libc.lm].Nodup; decide
  placed := placedH libsH_U
  cover := by
    intro l hl s hs
    obtain rfl := onlyH l (libsH_U l hl) s hs
    refine Or.inr ⟨(0x10000000, 0x1000), by show _ ∈ marksOf env href; rw [marks_href]; simp, ?_⟩
    rw [rl_href] at hs
    exact ⟨rfl, hslots_marked s hs⟩
  ne := by simp [procH]

def hops : List Op := [hmult.dowrap 1 1 "Multiplies", hadd.dowrap 1 1 "Additions"]

theorem hops_prog : ∀ u ∈ hops.flatMap tableOf, P u.wrapper = some u.handle := by decide +kernel
theorem hops_main : ∀ u ∈ hops.flatMap tableOf, u.name ≠ nm "main" := by decide +kernel

theorem historyH : History procH True hops where
  honest := ⟨by decide +kernel, hops_prog, envOk⟩
  loader := ⟨fun _ => by show firstDef none [href, hmath, libc] (nm "dlopen") ≠ none; decide +kernel,
    fun h => (by cases h), trivial⟩
  cons := fun _ => consH libsH_U
  filter := fun _ f h => by simp [hops, Info.dowrap] at h
  main := fun _ => mainAlone_none fun o ho ⟨u, hu, e⟩ => hops_main u (List.mem_flatMap.2 ⟨o, ho, hu⟩) e
  short := fun _ => by decide

/-- The code of the functions and wrappers. -/
def hcode (a : Addr) : Int → Prog Int :=
  let q (n : Nat) : Nat × Nat := (n / 2, n % 2)
  if 0x50005000 ≤ a.toNat then let (x, y) := q ((a.toNat - 0x50005000) / 8); addMath x y
  else if 0x50004000 ≤ a.toNat then let (x, y) := q ((a.toNat - 0x50004000) / 8); multMath x y
  else negMath (a.toNat - 0x500)

/-- The library libref1_1. -/
def hrefs : List Ref := [⟨1, 1, fun a b => (href, 0x18 + fnOff a b), fun a b => (href, 0x58 + fnOff a b)⟩,
  ⟨0, 1, fun a b => (href, 0x18 + fnOff a b), fun a b => (href, 0x58 + fnOff a b)⟩]

end Gotcha.Demo
