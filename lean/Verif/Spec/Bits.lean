import Verif.Spec.Effects
import Verif.Spec.Elf
import Verif.Proof.CoreLib
/-
Page protections: what the loader alone would have left behind, and which pages belong to the tables
that GOTCHA patches in an object.
-/
namespace Gotcha.Spec
open Elf

/-- Whether a word is writable after one event, had GOTCHA done nothing. -/
def loaderBit (op : Op) (a : Addr) (old : Bool) : Bool :=
  match op with
  | .dlopen ld => (ld.wr a).getD old
  | .load ld => (ld.wr a).getD old
  | _ => old

/-- Whether a word is writable after a history, had GOTCHA done nothing. -/
def loaderWr (wr : Addr → Bool) (ops : List Op) (a : Addr) : Bool :=
  ops.foldl (fun v op => loaderBit op a v) (wr a)

/-- The page (of `2^k` bytes) of `a` holds part of a RELRO segment of `l`. -/
def OnRelro (k : Nat) (l : Lib) (a : Addr) : Prop :=
  ∃ p ∈ l.phdrs, p.type = 0x6474e552 ∧ ∃ x, l.addr.toNat + p.vaddr.toNat ≤ x ∧
    x < l.addr.toNat + p.vaddr.toNat + p.memsz.toNat ∧ x / 2 ^ k = a.toNat / 2 ^ k

/-- The page of `a` is that of the PLT GOT of `l`, or begins less than DT_RELSZ bytes after the beginning
of that page. -/
def OnGot (k : Nat) (l : Lib) (a : Addr) : Prop :=
  ∃ tags g, DynSection l.img tags ∧ tagVal tags Tag.PLTGOT = some g ∧ g ≠ 0 ∧
    g.toNat / 2 ^ k ≤ a.toNat / 2 ^ k ∧ (a.toNat / 2 ^ k = g.toNat / 2 ^ k ∨
      a.toNat / 2 ^ k * 2 ^ k < g.toNat / 2 ^ k * 2 ^ k + ((tagVal tags Tag.RELSZ).getD 0).toNat % 2 ^ 32)

/-- The segments and tables of `l` do not wrap around the end of the address space, and its dynamic section,
if it has one, is complete. -/
structure Sized (k : Nat) (l : Lib) : Prop where
  relro : ∀ p ∈ l.phdrs, p.type = 0x6474e552 → 0 < p.memsz.toNat ∧
    l.addr.toNat + p.vaddr.toNat + p.memsz.toNat + 2 ^ k ≤ 2 ^ 64
  dyn : l.img.dyn = none ∨ ∃ tags, DynSection l.img tags ∧ EntOk tags ∧ ∀ g, tagVal tags Tag.PLTGOT = some g →
    g.toNat + ((tagVal tags Tag.RELSZ).getD 0).toNat % 2 ^ 32 + 2 * 2 ^ k ≤ 2 ^ 64

end Gotcha.Spec
