import Verif.Model.Trace
/-
Another thread calls a wrapped function while `gotcha_wrap` is running: every interleaving.
-/
namespace Gotcha.Spec

/-- Where a caller is.  `slot a`: about to read the GOT word at `a`.  `jump a ran`: about to run the
function at `a`, having run `ran`.  `got b ran`: a wrapper has read its handle variable, pointing to
the binding `b`, and is about to read the wrappee from it.  `done ran`: a function that is not a
wrapper has been reached; `ran` are the functions that ran, in order. -/
inductive Pos where
  | slot (a : Addr)
  | jump (a : Addr) (ran : List Addr)
  | got (b : BId) (ran : List Addr)
  | done (ran : List Addr)

/-- One step of a caller, that is one read of memory in state `σ`; `none` when it reads an
uninitialised wrappee or dereferences NULL.  `P` tells which handle variable a wrapper reads. -/
def next (P : Addr → Option HAddr) (σ : State) : Pos → Option Pos
  | .slot a => some (.jump (σ.mem a) [])
  | .jump a ran =>
    match P a with
    | none => some (.done (ran ++ [a]))
    | some h => (σ.handles h).map (fun b => .got b (ran ++ [a]))
  | .got b ran =>
    match σ.binds[b]? with
    | none => none
    | some x => x.wrappee.map (fun a => .jump a ran)
  | .done ran => some (.done ran)

/-- `Safe P Q tr pos`: a caller at `pos`, interleaved in any way with a thread that takes memory
through the states `tr`, always finishes, without reading anything invalid, and the functions it
runs satisfy `Q`.  Each of its reads happens in a state of `tr`, not before the state of the
previous read. -/
inductive Safe (P : Addr → Option HAddr) (Q : List Addr → Prop) : List State → Pos → Prop
  | done {tr ran} : Q ran → Safe P Q tr (.done ran)
  | step {tr pos} : (∀ σ tr', (σ :: tr') <:+ tr → next P σ pos ≠ none) →
      (∀ σ tr' pos', (σ :: tr') <:+ tr → next P σ pos = some pos' → Safe P Q (σ :: tr') pos') →
      Safe P Q tr pos

end Gotcha.Spec
