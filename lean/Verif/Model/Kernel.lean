import Verif.Model.Auxv
import Verif.Model.Core
/-
The page size and the vdso of `Env`, asked of the kernel's files with the static variables of the code.
-/
namespace Gotcha.Auxv
open Gotcha

/-- What the kernel provides: /proc/self/auxv and /proc/self/maps if they can be opened, and the program
headers of the ELF image at an address. -/
structure Files where
  auxv : Option File
  mapsFile : Option File
  image : Nat → List Phdr

/-- The part of a `struct link_map` that src/gotcha_auxv.c reads. -/
def mapOf (l : Lib) : LinkMap := ⟨l.lm, l.addr, l.ld, l.name⟩

def Files.outside (K : Files) (libs : List Lib) : Outside :=
  ⟨libs.map mapOf, K.auxv, K.mapsFile, K.image⟩

/-- What the rest of GOTCHA asks: the page size (src/gotcha.c:269, src/hash.c:40, src/libc_wrappers.c:94-95)
and whether a link map is the vdso (src/gotcha.c:58), with the link map at that time. -/
inductive Ask where
  | page
  | vdso (libs : List Lib) (lm : Addr)

inductive Answer where
  | page (n : Nat)
  | vdso (b : Bool)
  deriving DecidableEq

/-- The static variables: `pagesz` (src/libc_wrappers.c:299) and those of src/gotcha_auxv.c. -/
structure Static where
  pagesz : Nat
  v : VdsoState

def Static.init : Static := ⟨0, VdsoState.init⟩

/-- One call of `gotcha_getpagesize` (src/libc_wrappers.c:298-305) or `is_vdso`
(src/gotcha_auxv.c:239-268). -/
def ask (K : Files) (st : Static) : Ask → Except Fault (Static × Answer)
  | .page =>
    match getpagesize st.pagesz st.v.aux K.auxv with
    | .error e => .error e
    | .ok (pgs, aux, n) => .ok (⟨pgs, { st.v with aux }⟩, .page n)
  | .vdso libs lm =>
    match isVdso st.v (K.outside libs) (some lm) with
    | .error e => .error e
    | .ok (v, b) => .ok ({ st with v }, .vdso b)

/-- Calls one after the other. -/
def asks (K : Files) : Static → List Ask → Except Fault (List Answer)
  | _, [] => .ok []
  | st, q :: qs =>
    match ask K st q with
    | .error e => .error e
    | .ok (st', a) =>
      match asks K st' qs with
      | .error e => .error e
      | .ok as => .ok (a :: as)

end Gotcha.Auxv
