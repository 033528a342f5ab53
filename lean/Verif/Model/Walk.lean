import Verif.Model.Core
/-
`update_all_library_gots` (src/gotcha.c:393-400) as the loop over pointers that it is, while another
thread loads and unloads objects.  The loop variable is the address of a `struct link_map`; the dynamic
linker frees that structure when the object is unloaded (dlclose), and GOTCHA neither intercepts dlclose
nor takes the loader's lock.

Simplification: the other thread comes in before the library is updated or before `l_next` is read, not
inside `update_library_got`.
-/
namespace Gotcha

/-- The `struct link_map` at an address (src/gotcha.c:397: `_r_debug.r_map` and `l_next`): the object and
its `l_next`.  `none`: there is no such structure (any more). -/
def nodeAt : List Lib → Addr → Option (Lib × Option Addr)
  | [], _ => none
  | l :: ls, a => if l.lm = a then some (l, ls.head?.map Lib.lm) else nodeAt ls a

/-- Where the loop is (src/gotcha.c:397-399): before the body with `lib_iter`, before `lib_iter->l_next` is
read, or at its end. -/
inductive WPos where
  | upd (a : Addr)
  | next (a : Addr)
  | fin
deriving DecidableEq

/-- src/gotcha.c:397: the loop variable has a new value. -/
def WPos.ofPtr : Option Addr → WPos
  | some a => .upd a
  | none => .fin

/-- The loop, with the libraries it has been to (newest first). -/
structure Walk where
  pos : WPos
  seen : List Lib

/-- src/gotcha.c:397 `lib_iter = _r_debug.r_map`. -/
def Walk.start (s : State) : Walk := ⟨.ofPtr (s.linkMap.head?.map Lib.lm), []⟩

/-- src/gotcha.c:397-399, the next part of the loop.  The table is the one it was called with; `none`
stands for the global `function_hash_table` (src/gotcha_dl.c:148), as it is by then.  A pointer to a
freed `struct link_map` is an access outside an object. -/
def walkStep (env : Env) (t : Option (HTable Name BId)) (w : Walk) (s : State) :
    Except Fault (State × Walk) :=
  match w.pos with
  | .upd a =>
    match nodeAt s.linkMap a with
    | none => .error .outOfBounds
    | some (l, nx) => do
      let s ← s.updateLib env (t.getD s.funTab) l nx.isSome
      .ok (s, ⟨.next a, l :: w.seen⟩)
  | .next a =>
    match nodeAt s.linkMap a with
    | none => .error .outOfBounds
    | some (_, nx) => .ok (s, ⟨.ofPtr nx, w.seen⟩)
  | .fin => .ok (s, w)

/-- What happens while the loop runs (src/gotcha.c:397-399 in one thread, dlopen and dlclose in others). -/
inductive WalkEv where
  | step
  | load (ld : Load)
  | unload (dead : Addr → Bool)

/-- src/gotcha.c:397-399 with what the loader does in between. -/
def runWalk (env : Env) (t : Option (HTable Name BId)) :
    List WalkEv → State → Walk → Except Fault (State × Walk)
  | [], s, w => .ok (s, w)
  | .step :: es, s, w => do
    let (s, w) ← walkStep env t w s
    runWalk env t es s w
  | .load ld :: es, s, w => runWalk env t es (s.load ld) w
  | .unload dead :: es, s, w => runWalk env t es (s.unload dead) w

end Gotcha
