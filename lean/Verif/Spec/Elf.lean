import Verif.Model.Got
/-
What a linker puts into the dynamic symbol table, the GNU hash section and the SysV hash section, as
the ELF and GNU hash formats define them.  Nothing here uses the lookup code.
-/
namespace Gotcha.Spec
open Gotcha Elf

/-- A dynamic symbol: its name, its version index (without the hidden bit), value and size. -/
structure DynSym where
  name : Name
  ver : Nat
  value : Addr
  size : BitVec 64
  deriving DecidableEq, Repr

def nameOf (syms : List DynSym) (i : Nat) : Name := ((syms[i]?).map (·.name)).getD []
def verAt (syms : List DynSym) (i : Nat) : Nat := ((syms[i]?).map (·.ver)).getD 0

/-- The symbol table, the string table and, if there is one, the version table hold `syms`. -/
structure Syms (img : Image) (d : DynInfo) (syms : List DynSym) : Prop where
  short : syms.length < 2 ^ 32
  sym : ∀ i x, syms[i]? = some x → ∃ s, img.sym (d.symtab + BitVec.ofNat 64 (24 * i)) = some s ∧
    s.value = x.value ∧ s.size = x.size ∧ img.str (d.strtab + s.name.setWidth 64) = some x.name
  ver : d.versym ≠ 0 → ∀ i x, syms[i]? = some x → ∃ v,
    img.half (d.versym + BitVec.ofNat 64 (2 * i)) = some v ∧ v.toNat % 2 ^ 15 = x.ver

/-- The GNU hash function: bytes are unsigned, arithmetic is modulo 2^32. -/
def gnuHash (s : Name) : Nat := s.foldl (fun h c => (h * 33 + c.toNat) % 2 ^ 32) 5381

/-- The same with bytes from 0x80 on counted as negative numbers, as a `char` of x86-64 is. -/
def signedHash (s : Name) : Nat :=
  s.foldl (fun h c => (h * 33 + if c.toNat < 128 then c.toNat else 2 ^ 32 + c.toNat - 256) % 2 ^ 32) 5381

/-- How many bytes of the name are not 7-bit characters. -/
def highBytes (s : Name) : Nat := (s.filter fun c => decide (128 ≤ c.toNat)).length

/-- The SysV hash function: the top four bits are folded back in at each step. -/
def sysvHash (s : Name) : Nat :=
  s.foldl (fun h c =>
    let t := (h * 16 + c.toNat) % 2 ^ 32
    (t % 2 ^ 28) ^^^ (t / 2 ^ 28 * 16)) 0

/-- A GNU hash section at address `h` covering the symbols from index `off` on, with `nb` buckets and
`mw` words of Bloom filter: symbols are grouped by bucket; a bucket holds the index of its first
symbol, or 0; the chain word of a symbol is its hash with the low bit telling the last of the bucket. -/
structure GnuTable (img : Image) (h : Addr) (syms : List DynSym) (off nb mw : Nat) : Prop where
  pos : 0 < nb
  nb32 : nb < 2 ^ 32
  mw32 : mw < 2 ^ 32
  off0 : 0 < off
  off32 : off < 2 ^ 32
  hdr0 : img.word h = some (BitVec.ofNat 32 nb)
  hdr1 : img.word (h + 4) = some (BitVec.ofNat 32 off)
  hdr2 : img.word (h + 8) = some (BitVec.ofNat 32 mw)
  grouped : ∀ i j k, off ≤ i → i < j → j < k → k < syms.length →
    gnuHash (nameOf syms i) % nb = gnuHash (nameOf syms k) % nb →
    gnuHash (nameOf syms j) % nb = gnuHash (nameOf syms i) % nb
  bucket : ∀ b, b < nb → ∃ w : BitVec 32,
    img.word (h + BitVec.ofNat 64 (16 + 8 * mw + 4 * b)) = some w ∧
    ((w = 0 ∧ ∀ i, off ≤ i → i < syms.length → gnuHash (nameOf syms i) % nb ≠ b) ∨
      (off ≤ w.toNat ∧ w.toNat < syms.length ∧ gnuHash (nameOf syms w.toNat) % nb = b ∧
        ∀ i, off ≤ i → i < w.toNat → gnuHash (nameOf syms i) % nb ≠ b))
  chain : ∀ i, off ≤ i → i < syms.length → ∃ w : BitVec 32,
    img.word (h + BitVec.ofNat 64 (16 + 8 * mw + 4 * nb + 4 * (i - off))) = some w ∧
    w.toNat / 2 = gnuHash (nameOf syms i) / 2 ∧
    (w.toNat % 2 = 1 ↔ i + 1 = syms.length ∨
      gnuHash (nameOf syms (i + 1)) % nb ≠ gnuHash (nameOf syms i) % nb)

/-- The words at `base` link the indices of `L`, starting from `y` and ending with 0. -/
def Chained (img : Image) (base : Addr) : List Nat → BitVec 32 → Prop
  | [], y => y = 0
  | i :: L, y => y = BitVec.ofNat 32 i ∧ i ≠ 0 ∧
      ∃ y', img.word (base + BitVec.ofNat 64 (4 * i)) = some y' ∧ Chained img base L y'

/-- A SysV hash section at `h` with `nb` buckets: the chain of a bucket links, in some order, exactly
the symbols (other than symbol 0) that hash into the bucket. -/
structure SysvTable (img : Image) (h : Addr) (syms : List DynSym) (nb : Nat) : Prop where
  pos : 0 < nb
  nb32 : nb < 2 ^ 32
  hdr0 : img.word h = some (BitVec.ofNat 32 nb)
  bucket : ∀ b, b < nb → ∃ (w : BitVec 32) (L : List Nat),
    img.word (h + BitVec.ofNat 64 (8 + 4 * b)) = some w ∧
    Chained img (h + BitVec.ofNat 64 (8 + 4 * nb)) L w ∧ L.Nodup ∧
    ∀ i, i ∈ L ↔ 0 < i ∧ i < syms.length ∧ sysvHash (nameOf syms i) % nb = b

/-- `i` is a definition of `n` among the symbols from `off` on.  With a version table, version index 0
(local) does not count. -/
def Defines (syms : List DynSym) (off : Nat) (versioned : Prop) (n : Name) (i : Nat) : Prop :=
  off ≤ i ∧ i < syms.length ∧ nameOf syms i = n ∧ (versioned → verAt syms i ≠ 0)

/-- `r` is what a lookup of `n` should give: nothing if there is no definition, otherwise a definition
with the highest version index. -/
def Newest (syms : List DynSym) (off : Nat) (versioned : Prop) (n : Name)
    (r : Option (BitVec 32)) : Prop :=
  (r = none ↔ ∀ i, ¬ Defines syms off versioned n i) ∧
  ∀ w, r = some w → Defines syms off versioned n w.toNat ∧
    (versioned → ∀ j, Defines syms off versioned n j → verAt syms j ≤ verAt syms w.toNat)

/-- The names for which the code computes the hash value the linker used: 7-bit bytes. -/
def Ascii (n : Name) : Prop := ∀ c ∈ n, c.toNat < 128

instance (n : Name) : Decidable (Ascii n) := inferInstanceAs (Decidable (∀ c ∈ n, c.toNat < 128))

/-! The tags of a dynamic section, as numbered by the System V ABI and its GNU extensions. -/
namespace Tag
abbrev PLTRELSZ : Nat := 2
abbrev PLTGOT : Nat := 3
abbrev HASH : Nat := 4
abbrev STRTAB : Nat := 5
abbrev SYMTAB : Nat := 6
abbrev RELA : Nat := 7
abbrev RELASZ : Nat := 8
abbrev RELAENT : Nat := 9
abbrev REL : Nat := 17
abbrev RELSZ : Nat := 18
abbrev RELENT : Nat := 19
abbrev PLTREL : Nat := 20
abbrev JMPREL : Nat := 23
abbrev GNU_HASH : Nat := 0x6ffffef5
abbrev VERSYM : Nat := 0x6ffffff0
end Tag

/-- The value of a tag in a dynamic section: of the last entry with that tag. -/
def tagVal (l : List (Nat × Addr)) (t : Nat) : Option Addr :=
  (l.reverse.find? (fun e => e.1 = t)).map (·.2)

/-- The dynamic section of `img` is `l`: entries with tags other than 0, ended by a tag 0. -/
def DynSection (img : Image) (l : List (Nat × Addr)) : Prop :=
  (∀ e ∈ l, e.1 ≠ 0) ∧ ∃ v rest, img.dyn = some (l ++ (0, v) :: rest)

/-- No DT_RELENT / DT_RELAENT entry says 0 (the code divides by it). -/
def EntOk (l : List (Nat × Addr)) : Prop :=
  ∀ t, t = Tag.RELENT ∨ t = Tag.RELAENT → ∀ v, tagVal l t = some v → (v.setWidth 32 : BitVec 32) ≠ 0

/-- What a dynamic section says: addresses that are absent are 0, entry sizes that are absent 1;
sizes are kept as 32-bit numbers. -/
def sectionInfo (l : List (Nat × Addr)) : DynInfo where
  rela := (tagVal l Tag.RELA).getD 0
  rel := (tagVal l Tag.REL).getD 0
  jmprel := (tagVal l Tag.JMPREL).getD 0
  symtab := (tagVal l Tag.SYMTAB).getD 0
  gnuHash := (tagVal l Tag.GNU_HASH).getD 0
  elfHash := (tagVal l Tag.HASH).getD 0
  got := (tagVal l Tag.PLTGOT).getD 0
  versym := (tagVal l Tag.VERSYM).getD 0
  strtab := (tagVal l Tag.STRTAB).getD 0
  relSize := ((tagVal l Tag.RELSZ).getD 0).setWidth 32
  relEsz := ((tagVal l Tag.RELENT).getD 1).setWidth 32
  relaSize := ((tagVal l Tag.RELASZ).getD 0).setWidth 32
  relaEsz := ((tagVal l Tag.RELAENT).getD 1).setWidth 32
  jmprelSize := ((tagVal l Tag.PLTRELSZ).getD 0).setWidth 32
  isRela := tagVal l Tag.PLTREL = some 7

/-- Which tables an object has: the section addresses are 0 when absent. -/
structure Tables (img : Image) (d : DynInfo) (syms : List DynSym) (off : Nat) : Prop where
  dyn : ∃ l, DynSection img l ∧ EntOk l ∧ d = sectionInfo l
  tab : Syms img d syms
  gnu : d.gnuHash ≠ 0 → ∃ nb mw, GnuTable img d.gnuHash syms off nb mw
  sysv : d.elfHash ≠ 0 → ∃ nb, SysvTable img d.elfHash syms nb

/-- The address an index stands for: a symbol of size 0 does not count. -/
def addrOf (syms : List DynSym) (lAddr : Addr) (r : Option (BitVec 32)) : Option Addr :=
  r.bind fun w => (syms[w.toNat]?).bind fun x => if x.size = 0 then none else some (x.value + lAddr)

/-- `load` reads at `base` an array (of `sz`-byte entries) of relocations: for each element of `L` its
offset and the name of its symbol. -/
def RelocTable (img : Image) (load : Addr → Option Reloc) (symtab strtab base : Addr) (sz : Nat)
    (L : List (Addr × Name)) : Prop :=
  ∀ i x, L[i]? = some x → ∃ r s, load (base + BitVec.ofNat 64 (sz * i)) = some r ∧ r.offset = x.1 ∧
    img.sym (symtab + BitVec.ofNat 64 (24 * r.sym.toNat)) = some s ∧
    img.str (strtab + s.name.setWidth 64) = some x.2

end Gotcha.Spec
