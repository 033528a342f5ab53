import Verif.Spec.Elf
import Mathlib.Tactic.IntervalCases
/-
A concrete image with a GNU hash section of two buckets, a SysV hash section, a version table with a
symbol in two versions, and a symbol whose name is not ASCII.
-/
namespace Gotcha.Demo
open Elf Spec

def gS : Addr := 0x10000
def gT : Addr := 0x20000
def gG : Addr := 0x30000
def gV : Addr := 0x40000
def gH : Addr := 0x50000

/-- "é" in UTF-8. -/
def eAcute : Name := [0xc3, 0xa9]

def gsyms : List DynSym :=
  [⟨[], 0, 0, 0⟩, ⟨nm "foo", 2, 0x1000, 8⟩, ⟨nm "foo", 3, 0x2000, 8⟩, ⟨eAcute, 2, 0x3000, 8⟩,
    ⟨nm "bar", 1, 0x4000, 8⟩]

def gwords : List (BitVec 32) :=
  [2, 1, 1, 0, 0, 0, 4, 1, 193491848, 193491848, 5866513, 193487035]

def hwords : List (BitVec 32) := [1, 5, 4, 0, 0, 1, 2, 3]

def ghalves : List (BitVec 16) := [0, 2, 0x8003, 2, 1]

/-- The image; `vs` and `hs` tell whether it has a version table and a SysV hash section. -/
def gimg (vs hs : Bool) : Image where
  dyn := some ([(Tag.SYMTAB, gS), (Tag.STRTAB, gT), (Tag.GNU_HASH, gG)] ++
    (if vs then [(Tag.VERSYM, gV)] else []) ++ (if hs then [(Tag.HASH, gH)] else []) ++ [(0, 0)])
  sym a := if (a - gS).toNat % 24 = 0 then
    (gsyms[(a - gS).toNat / 24]?).map
      (fun x => ⟨BitVec.ofNat 32 ((a - gS).toNat / 24), x.value, x.size⟩) else none
  rela _ := none
  rel _ := none
  word a := if a.toNat < 0x50000 then
      if (a - gG).toNat % 4 = 0 then gwords[(a - gG).toNat / 4]? else none
    else if (a - gH).toNat % 4 = 0 then hwords[(a - gH).toNat / 4]? else none
  half a := if (a - gV).toNat % 2 = 0 then ghalves[(a - gV).toNat / 2]? else none
  str a := (gsyms[(a - gT).toNat]?).map (·.name)

def ginfo (vs hs : Bool) : DynInfo :=
  { symtab := gS, strtab := gT, gnuHash := gG, versym := if vs then gV else 0,
    elfHash := if hs then gH else 0 }

/-- Evaluate for every choice of the optional sections. -/
macro "gdec" : tactic => `(tactic| decide +kernel +revert)

theorem gdyn (vs hs : Bool) : ∃ l, DynSection (gimg vs hs) l ∧ EntOk l ∧
    ginfo vs hs = sectionInfo l := by
  refine ⟨[(Tag.SYMTAB, gS), (Tag.STRTAB, gT), (Tag.GNU_HASH, gG)] ++
    (if vs then [(Tag.VERSYM, gV)] else []) ++ (if hs then [(Tag.HASH, gH)] else []),
    ⟨?_, 0, [], rfl⟩, ?_, ?_⟩
  · cases vs <;> cases hs <;> decide
  · rintro t (rfl | rfl) v h <;> cases vs <;> cases hs <;> cases h
  · cases vs <;> cases hs <;> rfl

theorem gSyms (vs hs : Bool) : Syms (gimg vs hs) (ginfo vs hs) gsyms where
  short := by decide
  sym := by
    intro i x h
    have hi : i < 5 := (List.getElem?_eq_some_iff.1 h).1
    refine ⟨⟨BitVec.ofNat 32 i, x.value, x.size⟩, ?_, rfl, rfl, ?_⟩ <;>
      interval_cases i <;> cases h <;> gdec
  ver := by
    intro hv i x h
    have : vs = true := by
      cases vs
      · exact absurd rfl hv
      · rfl
    subst this
    have hi : i < 5 := (List.getElem?_eq_some_iff.1 h).1
    refine ⟨ghalves.getD i 0, ?_, ?_⟩ <;> interval_cases i <;> cases h <;> gdec

theorem gGnu (vs hs : Bool) : GnuTable (gimg vs hs) gG gsyms 1 2 1 where
  pos := by decide
  nb32 := by decide
  mw32 := by decide
  off0 := by decide
  off32 := by decide
  hdr0 := by gdec
  hdr1 := by gdec
  hdr2 := by gdec
  grouped := by
    intro i j k h1 h2 h3 h4
    have h4 : k < 5 := h4
    have : i < 5 := by omega
    have : j < 5 := by omega
    interval_cases i <;> interval_cases j <;> first | omega | skip
    all_goals interval_cases k <;> first | omega | decide +kernel
  bucket := by
    intro b hb
    interval_cases b
    · refine ⟨4, by clear hb; gdec, Or.inr ⟨by decide, by decide, by decide +kernel, ?_⟩⟩
      intro i h1 h2
      have h2 : i < 4 := h2
      interval_cases i <;> decide +kernel
    · refine ⟨1, by clear hb; gdec, Or.inr ⟨by decide, by decide, by decide +kernel, ?_⟩⟩
      intro i h1 h2
      have h2 : i < 1 := h2
      omega
  chain := by
    intro i h1 h2
    have h2 : i < 5 := h2
    refine ⟨gwords.getD (i + 7) 0, ?_, ?_, ?_⟩ <;> interval_cases i <;> gdec

theorem gSysv (vs hs : Bool) : SysvTable (gimg vs hs) gH gsyms 1 where
  pos := by decide
  nb32 := by decide
  hdr0 := by gdec
  bucket := by
    intro b hb
    interval_cases b
    refine ⟨4, [4, 3, 2, 1], by clear hb; gdec, ?_, by decide, ?_⟩
    · exact ⟨rfl, by decide, 3, by clear hb; gdec, rfl, by decide, 2, by clear hb; gdec, rfl,
        by decide, 1, by clear hb; gdec, rfl, by decide, 0, by clear hb; gdec, rfl⟩
    · intro i
      have e : gsyms.length = 5 := rfl
      rw [e]
      simp only [List.mem_cons, List.not_mem_nil, or_false, Nat.mod_one, and_true]
      omega

end Gotcha.Demo
