import Verif.Model.LibC
import Verif.Model.Core
/-
Model of src/library_filters.c on memory: the filters as a client sets them, by pointers.  `Model/Core`
has the filters with the strings themselves (`Filter`).
-/
namespace Gotcha.Filters
open Gotcha

/-- What the filters read of a `struct link_map`: `l_name`, and whether `l_next` is not NULL. -/
structure Link where
  name : Addr
  hasNext : Bool

/-- The function `libraryFilterFunc` (src/library_filters.c:21) points to: one of the three of that file,
one of the client (simplified: a total function of what is in memory and the link map), or NULL. -/
inductive Func where
  | alwaysTrue
  | nameMatches
  | last
  | user (f : LibC.Mem → Link → Bool)
  | null

/-- The static variables `filter` and `libraryFilterFunc` (src/library_filters.c:20-21). -/
structure Vars where
  filter : Addr := 0
  func : Func := .alwaysTrue

/-- src/library_filters.c:35-37 `gotcha_set_library_filter_func`. -/
def setFunc (v : Vars) (f : Func) : Vars := { v with func := f }

/-- src/library_filters.c:34 `gotcha_only_filter_last`. -/
def onlyLast (v : Vars) : Vars := setFunc v .last

/-- src/library_filters.c:38-40 `gotcha_restore_library_filter_func`. -/
def restore (v : Vars) : Vars := setFunc v .alwaysTrue

/-- src/library_filters.c:42-45 `gotcha_filter_libraries_by_name`: the pointer is kept. -/
def filterByName (v : Vars) (nameFilter : Addr) : Vars := setFunc { v with filter := nameFilter } .nameMatches

/-- src/library_filters.c:25-29 `trueIfNameMatches`; `target` is never NULL (src/gotcha.c:370).  `strstr` is
the function gotcha_strstr stands for (src/libc_wrappers.h:37, 65); its result `none` is NULL. -/
def trueIfNameMatches (strstr : LibC.Mem → Addr → Addr → Except Fault (Option Addr)) (m : LibC.Mem) (v : Vars)
    (target : Link) : Except Fault Bool :=
  if v.filter = 0 then .ok false
  else
    match strstr m target.name v.filter with
    | .error f => .error f
    | .ok r => .ok r.isSome

/-- src/library_filters.c:30-33 `trueIfLast`. -/
def trueIfLast (target : Link) : Bool := !target.hasNext

/-- The call `libraryFilterFunc(map)` (src/gotcha.c:370). -/
def consult (strstr : LibC.Mem → Addr → Addr → Except Fault (Option Addr)) (m : LibC.Mem) (v : Vars)
    (target : Link) : Except Fault Bool :=
  match v.func with
  | .alwaysTrue => .ok true
  | .nameMatches => trueIfNameMatches strstr m v target
  | .last => .ok (trueIfLast target)
  | .user f => .ok (f m target)
  | .null => .error .nullDeref

/-- A client's calls. -/
inductive Call where
  | byName (p : Addr)
  | onlyLast
  | setFunc (f : LibC.Mem → Link → Bool)
  | setNull
  | restore

/-- One call. -/
def call (v : Vars) : Call → Vars
  | .byName p => filterByName v p
  | .onlyLast => onlyLast v
  | .setFunc f => setFunc v (.user f)
  | .setNull => setFunc v .null
  | .restore => restore v

/-- The variables after some calls. -/
def after (cs : List Call) : Vars := cs.foldl call {}

end Gotcha.Filters
