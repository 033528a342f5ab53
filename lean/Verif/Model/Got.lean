import Verif.Model.Elf
/-
Model of `find_relro_boundary` and `mark_got_writable` (src/gotcha.c:239-360): which address ranges
are passed to mprotect for a library.
-/
namespace Gotcha

/-- The fields of `Elf64_Phdr` that are read. -/
structure Phdr where
  type : Nat
  vaddr : Addr
  memsz : BitVec 64
  deriving DecidableEq, Repr

/-- A loaded object: an entry of the link map (`lm` is the address of the `struct link_map`, `name`
is `l_name`, `addr` is `l_addr`, `ld` is `l_ld`), its mapped image and its program headers as
reported by `dl_iterate_phdr` (which reports `l_name`, `l_addr`). -/
structure Lib where
  lm : Addr
  name : Option Name
  addr : Addr
  ld : Addr
  img : Image
  phdrs : List Phdr

namespace Got

def PT_LOAD : Nat := 1
def PT_GNU_RELRO : Nat := 0x6474e552

/-- src/gotcha.c:239-262 `find_relro_boundary` for one object reported by `dl_iterate_phdr`: the
RELRO region (start, end), `none` when the callback returns 0.  The names are compared inside the
loop over the PT_LOAD segments, so an object without PT_LOAD never matches.  A NULL `l_name` of the
library would fault in strcmp; `dl_iterate_phdr` reports the same non-NULL names as the link map. -/
def relroOf (lib o : Lib) : Option (Addr × Addr) :=
  if o.phdrs.any (fun p => p.type = PT_LOAD ∧ lib.name = o.name ∧ lib.addr = o.addr) then
    match o.phdrs.find? (fun p => p.type = PT_GNU_RELRO) with
    | none => none
    | some p => some (lib.addr + p.vaddr, lib.addr + p.vaddr + p.memsz)
  else none

/-- `dl_iterate_phdr(find_relro_boundary, &boundary)` (src/gotcha.c:280): stops at the first object
for which the callback returns 1. -/
def relroBoundary (objs : List Lib) (lib : Lib) : Option (Addr × Addr) :=
  objs.findSome? (relroOf lib)

/-- src/gotcha_utils.h:101-102 BOUNDARY_BEFORE. -/
def boundaryBefore (a page : BitVec 64) : BitVec 64 := a &&& -page

/-- `MAX(a,b)` then rounding up to a page multiple (src/gotcha.c:271-274 and :283-286). -/
def roundUp (a page : BitVec 64) : BitVec 64 :=
  let m := if a > page then a else page
  if m % page ≠ 0 then m + (page - m % page) else m

/-- src/gotcha.c:264-360 `mark_got_writable`: the (address, size) arguments of the mprotect calls in
order.  `relro` is the result of the RELRO search. -/
def ranges (page : BitVec 64) (got : Addr) (relSize : BitVec 32) (relro : Option (Addr × Addr)) :
    List (Addr × BitVec 64) :=
  let pltSize := roundUp (relSize.setWidth 64) page
  let pltAddr := boundaryBefore got page
  match relro with
  | none => [(pltAddr, pltSize)]
  | some (start, stop) =>
    let gotEnd := roundUp stop page
    let gotAddr := boundaryBefore start page
    let gotSize := gotEnd - gotAddr
    if gotAddr = pltAddr + pltSize then [(pltAddr, pltSize + gotSize)]
    else if pltAddr = gotAddr + gotSize then [(gotAddr, pltSize + gotSize)]
    else [(gotAddr, gotSize), (pltAddr, pltSize)]

/-- The mprotect calls `mark_got_writable(lib)` makes (src/gotcha.c:264-360), for page size `page`:
none when `l_ld` is NULL or there is no DT_PLTGOT. -/
def markCalls (page : BitVec 64) (objs : List Lib) (lib : Lib) :
    Except Fault (List (Addr × BitVec 64)) :=
  match Elf.initDynamic lib.img with
  | .error f => .error f
  | .ok none => .ok []
  | .ok (some d) =>
    if d.got = 0 then .ok []
    else if page = 0 then .error .divZero
    else .ok (ranges page d.got d.relSize (relroBoundary objs lib))

/-- `a` lies in the range `[r.1, r.1 + r.2)` (no wrap-around). -/
def inRange (a : Addr) (r : Addr × BitVec 64) : Prop :=
  r.1.toNat ≤ a.toNat ∧ a.toNat < r.1.toNat + r.2.toNat

instance (a : Addr) (r : Addr × BitVec 64) : Decidable (inRange a r) :=
  inferInstanceAs (Decidable (_ ∧ _))

end Got
end Gotcha
