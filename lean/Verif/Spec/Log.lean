import Verif.Model.Log
/-
What the full log of GOTCHA says, apart from the functions that print it: its messages of level 1, what a reader
reconstructs from it, and when its messages are true.
-/
namespace Gotcha.Spec
open Gotcha

/-- The messages of level 1 that are about what the engine does (without the reports of errors). -/
def ones : List Note → List Msg
  | [] => []
  | .one m :: ns => m :: ones ns
  | _ :: ns => ones ns

/-- What a reader of the log keeps track of: the words of memory, which of them are writable, the pointer in each
internal binding, how many bindings and records of libraries there are, the generation and whether the internal
wrappers of main are in place. -/
structure Mirror where
  mem : Addr → Addr
  wr : Addr → Bool
  ptr : BId → Option Addr
  bindings : Nat
  records : Nat
  gen : BitVec 32
  main : Bool

/-- The part of the state that the reader keeps track of. -/
def mirror (s : State) : Mirror where
  mem := s.mem
  wr := s.wr
  ptr := fun b => match s.binds[b]? with
    | none => none
    | some x => x.wrappee
  bindings := s.binds.length
  records := s.libs.length
  gen := s.gen
  main := s.mainWrapped

/-- The effect a reader attributes to one message. -/
def heed (m : Mirror) : Note → Mirror
  | .remap _ a _ w => { m with mem := fun x => if x = a then w else m.mem x }
  | .mark _ _ r => { m with wr := fun x => if r.1.toNat ≤ x.toNat ∧ x.toNat < r.1.toNat + r.2.toNat then true else m.wr x }
  | .point b v => { m with ptr := fun x => if x = b then v else m.ptr x }
  | .tableFor n _ => { m with bindings := m.bindings + n }
  | .newLib _ _ => { m with records := m.records + 1 }
  | .generation g => { m with gen := g }
  | .wrapMain => { m with main := true }
  | _ => m

/-- The reader goes through the log.  An announced change of protection that is followed by a report of failure did
not happen. -/
def replay : List Note → Mirror → Mirror
  | [], m => m
  | .mark _ _ _ :: .markFailed _ :: ns, m => replay ns m
  | n :: ns, m => replay ns (heed m n)

/-- A message is true: `lm` is the list of loaded objects, `f` the library filter. -/
def Holds (env : Env) (lm : List Lib) (f : Filter) : Note → Prop
  | .found g n a => ∃ l ∈ lm, libName l.name = n ∧ Elf.exported l.img l.addr g = .ok (some a)
  | .notIn g n | .hidden g n => ∃ l ∈ lm, libName l.name = n ∧ Elf.exported l.img l.addr g = .ok none
  | .noSymbols n => ∃ l ∈ lm, libName l.name = n ∧ ∀ g, Elf.exported l.img l.addr g = .ok none
  | .vdso a n => ∃ l ∈ lm, libName l.name = n ∧ l.addr = a
  | .newLib _ n | .searching n | .checkGnu _ n | .checkElf _ n | .notInLibrary _ n | .upToDate n =>
    ∃ l ∈ lm, libName l.name = n
  | .skip n => ∃ l ∈ lm, libName l.name = n ∧ ∃ hn, f.accepts l hn = .ok false
  | .remap g a n _ => ∃ l ∈ lm, libName l.name = n ∧ (∃ hn, f.accepts l hn = .ok true) ∧
      ∃ rl off, Elf.relocs l.img = .ok (some rl) ∧ (off, g) ∈ rl ∧ a = l.addr + off
  | .mark _ n r => env.mprotect r = true ∧ ∃ l ∈ lm, libName l.name = n ∧ (∃ hn, f.accepts l hn = .ok true) ∧
      ∃ rs, Got.markCalls (BitVec.ofNat 64 env.page) lm l = .ok rs ∧ r ∈ rs
  | .markFailed _ => False
  | .toHead p hp => hp < p
  | _ => True

/-- A piece of the log that stands for itself: a single true message, or the announcement of a change of protection
that the kernel refuses, with the report of that. -/
inductive Piece (env : Env) (lm : List Lib) (f : Filter) : List Note → Prop
  | single {n} : Holds env lm f n → Piece env lm f [n]
  | refused {k n r l hn rs} : env.mprotect r = false → l ∈ lm → libName l.name = n → f.accepts l hn = .ok true →
      Got.markCalls (BitVec.ofNat 64 env.page) lm l = .ok rs → r ∈ rs → Piece env lm f [.mark k n r, .markFailed k]

/-- The log is true. -/
inductive Truthful (env : Env) (lm : List Lib) (f : Filter) : List Note → Prop
  | nil : Truthful env lm f []
  | cons {p ns} : Piece env lm f p → Truthful env lm f ns → Truthful env lm f (p ++ ns)

/-- The part of an event that is not GOTCHA's: what the loader does, and the choice of a filter. -/
def given : Op → State → State
  | .dlopen ld, s => s.load ld
  | .load ld, s => s.load ld
  | .unload dead, s => s.unload dead
  | .setFilter f, s => { s with filter := f }
  | _, s => s

/-- The loader's part of an event, as the reader sees it. -/
def Mirror.given : Op → Mirror → Mirror
  | .dlopen ld, m | .load ld, m =>
    { m with mem := fun a => (ld.mem a).getD (m.mem a), wr := fun a => (ld.wr a).getD (m.wr a) }
  | _, m => m

/-- The reader goes through a history: the events with the logs they have left. -/
def readAll : List (Op × List Note) → Mirror → Mirror
  | [], m => m
  | (op, lg) :: rest, m => readAll rest (replay lg (m.given op))

end Gotcha.Spec
