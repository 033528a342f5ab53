import Mathlib.Data.List.Perm.Basic
/-
Specification of a finite map and of a bag of associations, as observed through a sequence of
operations.  Nothing here refers to the hash table model.
-/
namespace Gotcha.Spec

/-- Operations of a client of a table. -/
inductive MapOp (K D : Type) where
  | add (k : K) (d : D)
  | remove (k : K)
  | lookup (k : K)

/-- What the client observes. -/
inductive MapObs (D : Type) where
  | added
  | removed (ok : Bool)
  | found (d : Option D)
  deriving DecidableEq

variable {K D : Type}

/-- A map from keys to data. -/
def mapStep [DecidableEq K] (m : K → Option D) : MapOp K D → (K → Option D) × MapObs D
  | .add k d => (fun x => if x = k then some d else m x, .added)
  | .remove k => (fun x => if x = k then none else m x, .removed (m k).isSome)
  | .lookup k => (m, .found (m k))

def mapRun [DecidableEq K] (m : K → Option D) : List (MapOp K D) → List (MapObs D)
  | [] => []
  | op :: ops => (mapStep m op).2 :: mapRun (mapStep m op).1 ops

/-- Every addition in the sequence is of a key absent at that time. -/
def FreshAdds [DecidableEq K] (m : K → Option D) : List (MapOp K D) → Prop
  | [] => True
  | op :: ops => (∀ k d, op = .add k d → m k = none) ∧ FreshAdds (mapStep m op).1 ops

/-- A bag of associations (a key may occur several times): additions keep everything, a removal
deletes one association of the key, a lookup returns the data of one association of the key. -/
inductive BagRun : List (K × D) → List (MapOp K D) → List (MapObs D) → List (K × D) → Prop
  | nil {b b'} : b.Perm b' → BagRun b [] [] b'
  | add {b k d ops obs b'} : BagRun ((k, d) :: b) ops obs b' →
      BagRun b (.add k d :: ops) (.added :: obs) b'
  | removeHit {b b1 k d ops obs b'} : b.Perm ((k, d) :: b1) → BagRun b1 ops obs b' →
      BagRun b (.remove k :: ops) (.removed true :: obs) b'
  | removeMiss {b k ops obs b'} : (∀ d, (k, d) ∉ b) → BagRun b ops obs b' →
      BagRun b (.remove k :: ops) (.removed false :: obs) b'
  | lookupHit {b k d ops obs b'} : (k, d) ∈ b → BagRun b ops obs b' →
      BagRun b (.lookup k :: ops) (.found (some d) :: obs) b'
  | lookupMiss {b k ops obs b'} : (∀ d, (k, d) ∉ b) → BagRun b ops obs b' →
      BagRun b (.lookup k :: ops) (.found none :: obs) b'

end Gotcha.Spec
