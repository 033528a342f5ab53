import Verif.Spec.Elf
import Verif.Spec.Real
/-
Which function the dynamic loader binds a reference to, from the ELF symbol tables and the symbol
versioning rules.  Nothing here uses GOTCHA's code.

Simplifications: the search scope of every reference is the link map in its order (no RTLD_LOCAL,
RTLD_DEEPBIND, -Bsymbolic or protected symbols), and every symbol that can be found is in the hash tables.
-/
namespace Gotcha.Spec
open Gotcha Elf

/-- What the loader reads of a symbol and GOTCHA does not: whether the object defines it (st_shndx),
whether it is the default version (the top bit of its version entry is clear), and for a symbol of type
STT_GNU_IFUNC the address its resolver returns. -/
structure SymKind where
  defined : Bool
  isDefault : Bool
  resolver : Option Addr

/-- An object as the loader sees it; `version` gives the names of the version indices. -/
structure ObjView where
  d : DynInfo
  syms : List DynSym
  off : Nat
  version : Nat → Option Name
  kind : Nat → SymKind

/-- The view is the one of `l`. -/
structure ObjView.Of (v : ObjView) (l : Lib) : Prop where
  tables : Tables l.img v.d v.syms v.off
  hash : v.d.gnuHash ≠ 0 ∨ v.d.elfHash ≠ 0
  top : v.d.versym ≠ 0 → ∀ i x, v.syms[i]? = some x → ∃ h : BitVec 16,
    l.img.half (v.d.versym + BitVec.ofNat 64 (2 * i)) = some h ∧
    ((v.kind i).isDefault = true ↔ h.toNat < 2 ^ 15)

/-- `i` is a symbol called `f` (symbol 0 does not count). -/
def ObjView.Named (v : ObjView) (f : Name) (i : Nat) : Prop :=
  0 < i ∧ i < v.syms.length ∧ nameOf v.syms i = f

/-- The version of symbol `i` answers a reference: one that names a version is answered by that version,
or by a symbol without version (index 1); one that names no version is answered by the default version. -/
def ObjView.Answers (v : ObjView) (want : Option Name) (i : Nat) : Prop :=
  v.d.versym ≠ 0 → match want with
    | some n => v.version (verAt v.syms i) = some n ∨ (verAt v.syms i = 1 ∧ (v.kind i).isDefault = true)
    | none => verAt v.syms i ≠ 0 ∧ (v.kind i).isDefault = true

/-- `i` is a definition for a reference to `f` in version `want`. -/
def ObjView.Match (v : ObjView) (f : Name) (want : Option Name) (i : Nat) : Prop :=
  v.Named f i ∧ (v.kind i).defined = true ∧ v.Answers want i

/-- The function symbol `i` of `l` stands for. -/
def ObjView.target (v : ObjView) (l : Lib) (i : Nat) : Addr :=
  match (v.kind i).resolver with
  | some a => a
  | none => (((v.syms[i]?).map (·.value)).getD 0) + l.addr

/-- The objects that are searched: all but the vdso. -/
def scope (v : Option Addr) (libs : List Lib) : List Lib := libs.filter (fun l => v ≠ some l.lm)

/-- The loader binds a reference to `f` in version `want` to `a`: the first object that has a matching
definition provides it. -/
def Bound (view : Lib → ObjView) (libs : List Lib) (f : Name) (want : Option Name) (a : Addr) : Prop :=
  ∃ l1 l l2 i, libs = l1 ++ l :: l2 ∧ (view l).Match f want i ∧ a = (view l).target l i ∧
    ∀ l' ∈ l1, ∀ j, ¬ (view l').Match f want j

/-- `f` is an ordinary function for the object: at most one symbol has that name, and if it is defined
(equivalently, has a size other than 0) it is exported and not of type STT_GNU_IFUNC. -/
def ObjView.Plain (v : ObjView) (f : Name) : Prop :=
  ∀ i, v.Named f i → (∀ j, v.Named f j → j = i) ∧
    ((v.kind i).defined = true ↔ ∀ x, v.syms[i]? = some x → x.size ≠ 0) ∧
    ((v.kind i).defined = true → (v.d.gnuHash ≠ 0 → v.off ≤ i) ∧
      (v.d.versym ≠ 0 → verAt v.syms i ≠ 0) ∧ (v.kind i).resolver = none)

end Gotcha.Spec
