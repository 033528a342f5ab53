import Verif.Model.Core
/-
Page permissions beyond write: what `mark_got_writable` asks mprotect for.
-/
namespace Gotcha.Got

/-- PROT_READ, PROT_WRITE, PROT_EXEC of a page, as seen from an address. -/
structure Perm where
  r : Bool
  w : Bool
  x : Bool
  deriving DecidableEq

/-- src/gotcha.c:303-304, 320-321, 334-335, 349-350: the protection argument of the four mprotect calls. -/
def wanted : Perm := ⟨true, true, true⟩

/-- One call of mprotect (libc's, src/libc_wrappers.h:46, or the syscall) that asks for `wanted`: all pages of
the range get exactly this protection, or, on failure, keep theirs (a failure is reported and ignored,
src/gotcha.c:306-311, 323-328, 336-341, 352-357). -/
def protect (ok : Addr × BitVec 64 → Bool) (pm : Addr → Perm) (r : Addr × BitVec 64) : Addr → Perm :=
  if ok r then fun a => if inRange a r then wanted else pm a else pm

/-- src/gotcha.c:264-360 `mark_got_writable`, its effect on the permissions. -/
def markPerms (page : BitVec 64) (ok : Addr × BitVec 64 → Bool) (objs : List Lib) (lib : Lib)
    (pm : Addr → Perm) : Except Fault (Addr → Perm) :=
  match markCalls page objs lib with
  | .error f => .error f
  | .ok rs => .ok (rs.foldl (protect ok) pm)

end Gotcha.Got
