import Verif.Proof.CoreTop
/-
The assumptions under which the properties of the interception engine are stated, in terms of the
process and of the list of events only.
-/
namespace Gotcha.Spec

/-- A process before the first use of GOTCHA: the environment, all objects that ever get loaded (`U`),
which handle variable each wrapper function reads (`P`; `none` for code that is not a wrapper), the
objects already loaded, memory words and page protections. -/
structure Process where
  env : Env
  U : Lib → Prop
  P : Addr → Option HAddr
  libs : List Lib
  mem : Addr → Addr
  wr : Addr → Bool

def Process.start (p : Process) : State := State.start p.libs p.mem p.wr

/-- The objects loaded at the start. -/
def Process.seen (p : Process) : Lib → Prop := fun l => l ∈ p.libs

/-- Well-formedness of the process.  `world`: page size, different objects
differ in the 32-bit hash of link_map address and name, have names and readable ELF tables.
`cover`: every GOT slot is on a writable page or on one that `mark_got_writable`
unprotects (the mprotect call for it succeeds; other mprotect calls may fail). -/
structure Process.Ok (p : Process) : Prop where
  world : World p.env p.U
  objs : ∀ l ∈ p.libs, p.U l
  nd : (p.libs.map (·.lm)).Nodup
  placed : Placed p.libs
  cover : ∀ l ∈ p.libs, ∀ s ∈ rlOf l,
    p.wr (l.addr + s.1) = true ∨ markedBy p.env l (l.addr + s.1)
  ne : p.libs ≠ []

def tableOf : Op → List UBinding
  | .wrap tbl _ => tbl
  | _ => []

/-- The events that are calls of the public API which initialise GOTCHA. -/
def isApi : Op → Bool
  | .wrap _ _ => true
  | .setPriority _ _ => true
  | .getPriority _ => true
  | _ => false

/-- Name of the tool a gotcha_wrap call is made for. -/
def toolName (t : Option Name) : Name := t.getD (nm "[UNSPECIFIED]")

/-- The last priority given to a tool. -/
def lastSet (t : Name) : List Op → Option Int
  | [] => none
  | .setPriority t' v :: ops => (lastSet t ops).or (if t' = t then some v else none)
  | _ :: ops => lastSet t ops

/-- Does the event name the tool?  GOTCHA's own tool is named by every API call. -/
def names (t : Name) : Op → Bool
  | .wrap _ tool => decide (toolName tool = t) || decide (t = nm "gotcha")
  | .setPriority t' _ => decide (t' = t) || decide (t = nm "gotcha")
  | .getPriority _ => decide (t = nm "gotcha")
  | _ => false

/-- Priority of a tool after a history; `none` if the name was never used. -/
def prioAfter (t : Name) (ops : List Op) : Option Int :=
  match lastSet t ops with
  | some v => some v
  | none => if ops.any (names t) then some (-1) else none

def prioOr (t : Name) (ops : List Op) : Int := (prioAfter t ops).getD (-1)

/-- The clients: every binding of every table has its own handle variable, which is none of GOTCHA's
four, and its wrapper reads that handle variable.  GOTCHA's own wrappers read their own handles. -/
structure Honest (env : Env) (P : Addr → Option HAddr) (ops : List Op) : Prop where
  nodup : ((ops.flatMap tableOf).map UBinding.handle ++
    [env.hDlopen, env.hDlsym, env.hLibcMain, env.hMain]).Nodup
  prog : ∀ u ∈ ops.flatMap tableOf, P u.wrapper = some u.handle
  own : EnvOk env P

/-- New objects get loaded while `libs` are there: they are known objects that are not loaded now, each
of their slots is writable or gets unprotected, and no slot of an object already there becomes
read-only.  An object that has been loaded before (and unloaded) has writable slots.  In the strict
case no object is loaded a second time, every GOT slot belongs to one function and loading does not
touch slots of objects already there. -/
structure LoadsOk (p : Process) (strict : Prop) (seen : Lib → Prop) (libs : List Lib) (ld : Load) :
    Prop where
  objs : ∀ l ∈ ld.libs, p.U l
  nd : ((libs ++ ld.libs).map (·.lm)).Nodup
  again : ∀ l ∈ ld.libs, seen l → ¬ strict ∧ ∀ s ∈ rlOf l, ld.wr (l.addr + s.1) = some true
  placed : Placed (libs ++ ld.libs)
  old : ∀ l ∈ libs, ∀ s ∈ rlOf l, ld.wr (l.addr + s.1) ≠ some false
  cover : ∀ l ∈ ld.libs, ∀ s ∈ rlOf l,
    ld.wr (l.addr + s.1) = some true ∨ markedBy p.env l (l.addr + s.1)
  cons : strict → SlotCons (libs ++ ld.libs)
  keep : strict → ∀ l ∈ libs, ∀ s ∈ rlOf l, ld.mem (l.addr + s.1) = none

/-- The loader's part of a history.  `inited` tells whether GOTCHA has been used.  In the strict case
every object loaded after that is loaded by a dlopen that GOTCHA sees.  When GOTCHA is first used,
some loaded object exports dlopen. -/
def LoaderOk (p : Process) (strict : Prop) : (Lib → Prop) → List Lib → Bool → List Op → Prop
  | _, _, _, [] => True
  | seen, libs, inited, op :: ops =>
    match op with
    | .dlopen ld => LoadsOk p strict seen libs ld ∧
        LoaderOk p strict (seenWith seen ld.libs) (libs ++ ld.libs) inited ops
    | .load ld => LoadsOk p strict seen libs ld ∧ (inited = true → ¬ strict) ∧
        LoaderOk p strict (seenWith seen ld.libs) (libs ++ ld.libs) inited ops
    | .unload dead => (inited = true ∨ libs.filter (fun l => !dead l.lm) ≠ []) ∧
        LoaderOk p strict seen (libs.filter (fun l => !dead l.lm)) inited ops
    | .setFilter _ => LoaderOk p strict seen libs inited ops
    | _ => (inited = false → firstDef (p.env.vdsoOf libs) libs (nm "dlopen") ≠ none) ∧
        LoaderOk p strict seen libs true ops

/-- "main" occurs in a table. -/
def hasMain (tbl : List UBinding) : Prop := ∃ u ∈ tbl, u.name = nm "main"

/-- The first table naming "main" contains nothing else and is that of a tool whose priority is not
above that of GOTCHA itself (−1 by default). -/
def MainAlone (ops : List Op) : Prop :=
  ∀ pre tbl tool post, ops = pre ++ .wrap tbl tool :: post → hasMain tbl →
    (∀ o ∈ pre, ¬ hasMain (tableOf o)) →
    (∃ u, tbl = [u]) ∧ prioOr (toolName tool) pre ≤ prioOr (nm "gotcha") pre

/-- A history of events.  In the strict case the default filter stays in force, the first table with
"main" contains nothing else, no object is loaded behind GOTCHA's back, and the 32-bit generation
counter does not wrap around. -/
structure Events (p : Process) (strict : Prop) (ops : List Op) : Prop where
  loader : LoaderOk p strict p.seen p.libs false ops
  cons : strict → SlotCons p.libs
  filter : strict → ∀ f, Op.setFilter f ∈ ops → f = .all
  main : strict → MainAlone ops
  short : strict → ops.length + 3 < 2 ^ 32

/-- A history of events with well-behaved clients. -/
structure History (p : Process) (strict : Prop) (ops : List Op) : Prop extends
    Events p strict ops where
  honest : Honest p.env p.P ops

/-! ### claims about some of the objects only -/

/-- The filter lets GOTCHA work on the object wherever it is on the link map. -/
def Passes : Filter → Lib → Prop
  | .all, _ => True
  | .byName none, _ => False
  | .byName (some f), l => ∃ n, l.name = some n ∧ f <:+: n
  | .last, _ => False
  | .custom f, l => ∀ hasNext, f l hasNext = true

/-- As `LoadsOk`, with the conditions of the strict case for the objects in `good` only: those are not
loaded a second time, and loading does not touch their slots once they are there. -/
structure LoadsFor (p : Process) (strict : Prop) (good : Lib → Prop) (seen : Lib → Prop)
    (libs : List Lib) (ld : Load) : Prop where
  objs : ∀ l ∈ ld.libs, p.U l
  nd : ((libs ++ ld.libs).map (·.lm)).Nodup
  again : ∀ l ∈ ld.libs, seen l → (strict → ¬ good l) ∧
    ∀ s ∈ rlOf l, ld.wr (l.addr + s.1) = some true
  placed : Placed (libs ++ ld.libs)
  old : ∀ l ∈ libs, ∀ s ∈ rlOf l, ld.wr (l.addr + s.1) ≠ some false
  cover : ∀ l ∈ ld.libs, ∀ s ∈ rlOf l,
    ld.wr (l.addr + s.1) = some true ∨ markedBy p.env l (l.addr + s.1)
  cons : strict → SlotCons (libs ++ ld.libs)
  keep : strict → ∀ l ∈ libs, good l → ∀ s ∈ rlOf l, ld.mem (l.addr + s.1) = none

/-- As `LoaderOk`: the objects in `good` that are loaded once GOTCHA is in use are loaded by a dlopen
that GOTCHA sees; all others come and go in any way. -/
def LoaderFor (p : Process) (strict : Prop) (good : Lib → Prop) :
    (Lib → Prop) → List Lib → Bool → List Op → Prop
  | _, _, _, [] => True
  | seen, libs, inited, op :: ops =>
    match op with
    | .dlopen ld => LoadsFor p strict good seen libs ld ∧
        LoaderFor p strict good (seenWith seen ld.libs) (libs ++ ld.libs) inited ops
    | .load ld => LoadsFor p strict good seen libs ld ∧
        (inited = true → strict → ∀ l ∈ ld.libs, ¬ good l) ∧
        LoaderFor p strict good (seenWith seen ld.libs) (libs ++ ld.libs) inited ops
    | .unload dead => (inited = true ∨ libs.filter (fun l => !dead l.lm) ≠ []) ∧
        LoaderFor p strict good seen (libs.filter (fun l => !dead l.lm)) inited ops
    | .setFilter _ => LoaderFor p strict good seen libs inited ops
    | _ => (inited = false → firstDef (p.env.vdsoOf libs) libs (nm "dlopen") ≠ none) ∧
        LoaderFor p strict good seen libs true ops

/-- A history in which the objects in `good` are treated well: every filter set lets them pass and
GOTCHA gets to know of them.  About other objects nothing of the kind is assumed. -/
structure EventsFor (p : Process) (strict : Prop) (good : Lib → Prop) (ops : List Op) : Prop where
  loader : LoaderFor p strict good p.seen p.libs false ops
  cons : strict → SlotCons p.libs
  filter : strict → ∀ f, Op.setFilter f ∈ ops → ∀ l, good l → Passes f l
  main : strict → MainAlone ops
  short : strict → ops.length + 3 < 2 ^ 32

structure HistoryFor (p : Process) (strict : Prop) (good : Lib → Prop) (ops : List Op) : Prop extends
    EventsFor p strict good ops where
  honest : Honest p.env p.P ops

end Gotcha.Spec
