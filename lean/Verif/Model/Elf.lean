import Verif.Model.Basic
/-
Model of the ELF walking code: src/elf_ops.c (hash lookups) and the macros INIT_DYNAMIC and
FOR_EACH_PLTREL of src/elf_ops.h.

A mapped ELF image is given by what can be read from it: `sym a` is the symbol table entry stored
at address `a`, `word a` the 32-bit word at `a`, and so on; `none` means that nothing of that type
is mapped there, and reading it is the fault `outOfBounds`.  Addresses are 64-bit and the pointer
arithmetic of the code is done on them explicitly (LP64: Sym 24, Rela 24, Rel 16, Word 4, Half 2).
-/
namespace Gotcha

/-- The fields of `Elf64_Sym` that are read. -/
structure Sym where
  name : BitVec 32
  value : Addr
  size : BitVec 64
  deriving DecidableEq, Repr

/-- The fields of `Elf64_Rel`/`Elf64_Rela` that are read: `r_offset` and `ELF64_R_SYM(r_info)`
(src/gotcha_utils.h:86-90). -/
structure Reloc where
  offset : Addr
  sym : BitVec 32
  deriving DecidableEq, Repr

/-- What is mapped for one loaded object.  `dyn` is the dynamic section at `l_ld` as a list of
(tag, value) pairs, `none` when `l_ld` is NULL. -/
structure Image where
  dyn : Option (List (Nat × Addr))
  sym : Addr → Option Sym
  rela : Addr → Option Reloc
  rel : Addr → Option Reloc
  word : Addr → Option (BitVec 32)
  half : Addr → Option (BitVec 16)
  str : Addr → Option Name

namespace Elf

/-! Dynamic tags (elf.h). -/
def DT_PLTRELSZ : Nat := 2
def DT_PLTGOT : Nat := 3
def DT_HASH : Nat := 4
def DT_STRTAB : Nat := 5
def DT_SYMTAB : Nat := 6
def DT_RELA : Nat := 7
def DT_RELASZ : Nat := 8
def DT_RELAENT : Nat := 9
def DT_REL : Nat := 17
def DT_RELSZ : Nat := 18
def DT_RELENT : Nat := 19
def DT_PLTREL : Nat := 20
def DT_JMPREL : Nat := 23
def DT_GNU_HASH : Nat := 0x6ffffef5
def DT_VERSYM : Nat := 0x6ffffff0

/-- The variables set by INIT_DYNAMIC (src/elf_ops.h:101-112); 0 is NULL. -/
structure DynInfo where
  rela : Addr := 0
  rel : Addr := 0
  jmprel : Addr := 0
  symtab : Addr := 0
  gnuHash : Addr := 0
  elfHash : Addr := 0
  got : Addr := 0
  versym : Addr := 0
  strtab : Addr := 0
  relSize : BitVec 32 := 0
  relEsz : BitVec 32 := 1
  relaSize : BitVec 32 := 0
  relaEsz : BitVec 32 := 1
  jmprelSize : BitVec 32 := 0
  isRela : Bool := false
  deriving DecidableEq, Repr

/-- One iteration of the `switch` of INIT_DYNAMIC (src/elf_ops.h:116-177). -/
def dynEntry (d : DynInfo) (tag : Nat) (v : Addr) : DynInfo :=
  if tag = DT_REL then { d with rel := v }
  else if tag = DT_RELSZ then { d with relSize := v.setWidth 32 }
  else if tag = DT_RELENT then { d with relEsz := v.setWidth 32 }
  else if tag = DT_RELA then { d with rela := v }
  else if tag = DT_RELASZ then { d with relaSize := v.setWidth 32 }
  else if tag = DT_RELAENT then { d with relaEsz := v.setWidth 32 }
  else if tag = DT_PLTRELSZ then { d with jmprelSize := v.setWidth 32 }
  else if tag = DT_PLTGOT then { d with got := v }
  else if tag = DT_HASH then { d with elfHash := v }
  else if tag = DT_STRTAB then { d with strtab := v }
  else if tag = DT_SYMTAB then { d with symtab := v }
  else if tag = DT_PLTREL then { d with isRela := v = BitVec.ofNat 64 DT_RELA }
  else if tag = DT_JMPREL then { d with jmprel := v }
  else if tag = DT_GNU_HASH then { d with gnuHash := v }
  else if tag = DT_VERSYM then { d with versym := v }
  else d

/-- The loop of INIT_DYNAMIC (src/elf_ops.h:115-178): up to the first `DT_NULL` (tag 0); running off
the end of the section is a fault. -/
def dynLoop : List (Nat × Addr) → DynInfo → Except Fault DynInfo
  | [], _ => .error .outOfBounds
  | (tag, v) :: rest, d => if tag = 0 then .ok d else dynLoop rest (dynEntry d tag v)

/-- src/elf_ops.h:100-195 INIT_DYNAMIC; `none` is its `return -1`.  The quotients of :179-182 are
`jmprelCount`, `relCount`, `relaCount` below; their division by zero is detected here. -/
def initDynamic (img : Image) : Except Fault (Option DynInfo) :=
  match img.dyn with
  | none => .ok none
  | some l =>
    match dynLoop l {} with
    | .error f => .error f
    | .ok d =>
      -- src/elf_ops.h:181-182: divisions by DT_RELENT / DT_RELAENT
      if d.rel ≠ 0 ∧ d.relEsz = 0 then .error .divZero
      else if d.rela ≠ 0 ∧ d.relaEsz = 0 then .error .divZero
      else .ok (some d)

/-- src/elf_ops.h:179-180. -/
def DynInfo.jmprelCount (d : DynInfo) : Nat :=
  d.jmprelSize.toNat / (if d.isRela then 24 else 16)

/-- src/elf_ops.h:181. -/
def DynInfo.relCount (d : DynInfo) : Nat :=
  if d.rel ≠ 0 then d.relSize.toNat / d.relEsz.toNat else 0

/-- src/elf_ops.h:182. -/
def DynInfo.relaCount (d : DynInfo) : Nat :=
  if d.rela ≠ 0 then d.relaSize.toNat / d.relaEsz.toNat else 0

/-- Pointer arithmetic `base + i` on objects of `sz` bytes. -/
def at' (base : Addr) (sz i : Nat) : Addr := base + BitVec.ofNat 64 (sz * i)

/-- src/elf_ops.h:213-220 FOR_EACH_PLTREL_INT: entries `i ..< count`, given as the list of
(r_offset, symbol name) pairs the operation is applied to.  `n` is the number of entries left. -/
def relocsInt (img : Image) (load : Addr → Option Reloc) (d : DynInfo) (base : Addr) (sz : Nat) :
    Nat → Nat → Except Fault (List (Addr × Name))
  | 0, _ => .ok []
  | n + 1, i =>
    match load (at' base sz i) with
    | none => .error .outOfBounds
    | some r =>
      match img.sym (at' d.symtab 24 r.sym.toNat) with
      | none => .error .outOfBounds
      | some s =>
        match img.str (d.strtab + s.name.setWidth 64) with
        | none => .error .outOfBounds
        | some name =>
          match relocsInt img load d base sz n (i + 1) with
          | .error f => .error f
          | .ok rest => .ok ((r.offset, name) :: rest)

/-- src/elf_ops.h:236-254 FOR_EACH_PLTREL, as the list of (r_offset, name) pairs visited, in
order.  The operation does not change what is read here. -/
def relocsOf (img : Image) (d : DynInfo) : Except Fault (List (Addr × Name)) :=
  let load := if d.isRela then img.rela else img.rel
  let sz := if d.isRela then 24 else 16
  let main := if d.isRela then d.rela else d.rel
  let cnt := if d.isRela then d.relaCount else d.relCount
  match relocsInt img load d d.jmprel sz d.jmprelCount 0 with
  | .error f => .error f
  | .ok l1 =>
    if main ≠ 0 then
      match relocsInt img load d main sz cnt 0 with
      | .error f => .error f
      | .ok l2 => .ok (l1 ++ l2)
    else .ok l1

/-- A `char` of a C string (signed on x86-64) promoted to `int` and converted to `uint32_t`. -/
def charSext (c : UInt8) : BitVec 32 := (BitVec.ofNat 8 c.toNat).signExtend 32

/-- src/elf_ops.c:29-35 `gnu_hash_func`. -/
def gnuHashFunc (s : Name) : BitVec 32 :=
  s.foldl (fun h c => h * 33 + charSext c) 5381

/-- src/elf_ops.c:91-101 `elf_hash`, one character. -/
def elfHashStep (h : BitVec 32) (c : UInt8) : BitVec 32 :=
  let h1 := (h <<< 4) + BitVec.ofNat 32 c.toNat
  let g := h1 &&& 0xf0000000#32
  let h2 := if g ≠ 0 then h1 ^^^ (g >>> 24) else h1
  h2 &&& ~~~g

/-- src/elf_ops.c:91-101 `elf_hash`. -/
def elfHashFunc (s : Name) : BitVec 32 := s.foldl elfHashStep 0

/-- The name comparison of both lookups: `gotcha_strcmp(name, symnames + syms[i].st_name) == 0`. -/
def nameIs (img : Image) (d : DynInfo) (name : Name) (i : BitVec 32) : Except Fault Bool :=
  match img.sym (at' d.symtab 24 i.toNat) with
  | none => .error .outOfBounds
  | some s =>
    match img.str (d.strtab + s.name.setWidth 64) with
    | none => .error .outOfBounds
    | some n => .ok (name = n)

/-- `versym[i] & 0x7fff`. -/
def verOf (img : Image) (d : DynInfo) (i : BitVec 32) : Except Fault (BitVec 16) :=
  match img.half (at' d.versym 2 i.toNat) with
  | none => .error .outOfBounds
  | some v => .ok (v &&& 0x7fff)

/-- What a matching symbol does to the search state (src/elf_ops.c:73-80 and :116-124): `inl` is an
immediate return, `inr` the updated `latest_sym`, `latest_sym_ver`. -/
def onMatch (img : Image) (d : DynInfo) (cur : BitVec 32) (latest : Option (BitVec 32))
    (ver : BitVec 16) : Except Fault (BitVec 32 ⊕ (Option (BitVec 32) × BitVec 16)) :=
  if d.versym = 0 then .ok (.inl cur)
  else
    match verOf img d cur with
    | .error f => .error f
    | .ok v => if v > ver then .ok (.inr (some cur, v)) else .ok (.inr (latest, ver))

/-- src/elf_ops.c:69-86: the loop of `lookup_gnu_hash_symbol`.  `none` is -1.  After 2^32 iterations
the 32-bit `cur_sym` has wrapped around, so running out of fuel is real divergence. -/
def gnuLoop (img : Image) (d : DynInfo) (vals : Addr) (symndx : BitVec 32) (name : Name)
    (h : BitVec 32) :
    Nat → BitVec 32 → Option (BitVec 32) → BitVec 16 → Except Fault (Option (BitVec 32))
  | 0, _, _, _ => .error .diverge
  | fuel + 1, cur, latest, ver =>
    match img.word (at' vals 4 (cur - symndx).toNat) with
    | none => .error .outOfBounds
    | some hv =>
      let cont (st : Option (BitVec 32) × BitVec 16) : Except Fault (Option (BitVec 32)) :=
        if hv &&& 1#32 ≠ 0#32 then .ok st.1
        else gnuLoop img d vals symndx name h fuel (cur + 1) st.1 st.2
      if hv &&& ~~~1#32 = h then
        match nameIs img d name cur with
        | .error f => .error f
        | .ok false => cont (latest, ver)
        | .ok true =>
          match onMatch img d cur latest ver with
          | .error f => .error f
          | .ok (.inl r) => .ok (some r)
          | .ok (.inr st) => cont st
      else cont (latest, ver)

/-- src/elf_ops.c:48-89 `lookup_gnu_hash_symbol`.  `none` is -1. -/
def lookupGnu (img : Image) (d : DynInfo) (name : Name) : Except Fault (Option (BitVec 32)) :=
  match img.word d.gnuHash, img.word (d.gnuHash + 4), img.word (d.gnuHash + 8) with
  | some nbuckets, some symndx, some maskwords =>
    let buckets := at' (d.gnuHash + 16) 8 maskwords.toNat
    let vals := at' buckets 4 nbuckets.toNat
    let hv := gnuHashFunc name
    if nbuckets = 0 then .error .divZero
    else
      match img.word (at' buckets 4 (hv % nbuckets).toNat) with
      | none => .error .outOfBounds
      | some cur =>
        if cur = 0 then .ok none
        else gnuLoop img d vals symndx name (hv &&& ~~~1#32) (2 ^ 32) cur none 0
  | _, _, _ => .error .outOfBounds

/-- src/elf_ops.c:114-127: the loop of `lookup_elf_hash_symbol`.  Every chain index is a 32-bit word,
so after 2^32 iterations an index has repeated and (the version maximum only grows on new indices)
the loop never ends. -/
def elfLoop (img : Image) (d : DynInfo) (chains : Addr) (name : Name) :
    Nat → BitVec 32 → Option (BitVec 32) → BitVec 16 → Except Fault (Option (BitVec 32))
  | 0, _, _, _ => .error .diverge
  | fuel + 1, y, latest, ver =>
    if y = 0 then .ok latest
    else
      let cont (st : Option (BitVec 32) × BitVec 16) : Except Fault (Option (BitVec 32)) :=
        match img.word (at' chains 4 y.toNat) with
        | none => .error .outOfBounds
        | some y' => elfLoop img d chains name fuel y' st.1 st.2
      match nameIs img d name y with
      | .error f => .error f
      | .ok false => cont (latest, ver)
      | .ok true =>
        match onMatch img d y latest ver with
        | .error f => .error f
        | .ok (.inl r) => .ok (some r)
        | .ok (.inr st) => cont st

/-- src/elf_ops.c:103-130 `lookup_elf_hash_symbol`.  `none` is -1. -/
def lookupElf (img : Image) (d : DynInfo) (name : Name) : Except Fault (Option (BitVec 32)) :=
  match img.word d.elfHash with
  | none => .error .outOfBounds
  | some nbucket =>
    let buckets := d.elfHash + 8
    let chains := at' buckets 4 nbucket.toNat
    if nbucket = 0 then .error .divZero
    else
      match img.word (at' buckets 4 (elfHashFunc name % nbucket).toNat) with
      | none => .error .outOfBounds
      | some y => elfLoop img d chains name (2 ^ 32 + 1) y none 0

/-- src/gotcha.c:55-96 `lookup_exported_symbol` after the vdso test: the address stored through
`symbol`, or `none` for -1. -/
def exported (img : Image) (lAddr : Addr) (name : Name) : Except Fault (Option Addr) :=
  match initDynamic img with
  | .error f => .error f
  | .ok none => .ok none
  | .ok (some d) =>
    if d.gnuHash = 0 ∧ d.elfHash = 0 then .ok none
    else
      match (if d.gnuHash ≠ 0 then lookupGnu img d name else .ok none) with
      | .error f => .error f
      | .ok r1 =>
        match (if d.elfHash ≠ 0 ∧ r1 = none then lookupElf img d name else .ok r1) with
        | .error f => .error f
        | .ok none => .ok none
        | .ok (some i) =>
          match img.sym (at' d.symtab 24 i.toNat) with
          | none => .error .outOfBounds
          | some s => if s.size > 0 then .ok (some (s.value + lAddr)) else .ok none

/-- The (r_offset, name) pairs FOR_EACH_PLTREL visits for an object; `none` when `l_ld` is NULL (the
macro returns -1 from the enclosing function). -/
def relocs (img : Image) : Except Fault (Option (List (Addr × Name))) :=
  match initDynamic img with
  | .error f => .error f
  | .ok none => .ok none
  | .ok (some d) =>
    match relocsOf img d with
    | .error f => .error f
    | .ok l => .ok (some l)

end Elf
end Gotcha
