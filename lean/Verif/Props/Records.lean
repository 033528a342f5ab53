import Verif.Proof.Records
import Verif.Props.Effects
import Verif.Props.Hash
import Mathlib.Tactic.Tauto
/-
C27: the records of libraries, for any objects, colliding or not.
-/
namespace Gotcha.Props
open Gotcha HTable
open Gotcha.Spec (confused owners)

/-- The name that enters the hash of an object: a NULL and an empty name have stand-ins. -/
def shownName (l : Lib) : Name :=
  if l.name = none then nm "[NULL]" else if l.name = some [] then nm "[EMPTY]" else l.name.getD []

/-- C27: the hash two objects must share to be confused: the low half of the link_map address xor
Bernstein's hash of the name. -/
theorem C27_hash (l : Lib) :
    (linkMapHash l).toNat = (l.lm.toNat % 2 ^ 32) ^^^
      ((5381 * 33 ^ (shownName l).length + bernstein (shownName l)) % 2 ^ 32).toNat := by
  have hn : libName l.name = shownName l := by
    unfold shownName
    cases h : l.name with
    | none => rfl
    | some s => cases s <;> simp [libName]
  rw [linkMapHash, BitVec.toNat_xor, BitVec.toNat_setWidth, hn, ← C28_strhash, Int.toNat_natCast]

/-- Two objects with different link_map addresses and names and the same hash. -/
example : linkMapHash Demo.twinA = linkMapHash Demo.twinB ∧ Demo.twinA.lm ≠ Demo.twinB.lm :=
  ⟨C27_collision_refuted.2.1, by decide⟩

/-- C27, any objects in any order, colliding or not.  The records are those of `owners`, in order; the
record found for an object is one of an owner it is confused with, and none is found only when there is
no such owner. -/
theorem C27_records_in_general {page initial : Nat} (hp : 48 ≤ page) (hi : 0 < initial)
    {s : State} (ht : HTable.create page initial = .ok s.libTab) (hl : s.libs = [])
    (ls : List Lib) :
    ∃ s', seeAll ls s = .ok s' ∧
      s'.libs.map (·.map) = (owners [] ls).map (·.lm) ∧
      ∀ l, (∃ r a rec, s'.libTab.lookup (linkMapHash l) (linkMapEq l.lm) = .ok (some r) ∧
          (owners [] ls)[r]? = some a ∧ confused a l ∧
          s'.libs[r]? = some rec ∧ rec.map = a.lm) ∨
        (s'.libTab.lookup (linkMapHash l) (linkMapEq l.lm) = .ok none ∧
          ∀ a ∈ owners [] ls, ¬ confused a l) := by
  obtain ⟨s', h1, h2⟩ := recs_seeAll ls (recs_create hp hi ht rfl hl)
  exact ⟨s', h1, h2.recs, recs_lookup h2⟩

theorem owners_prefix : ∀ (ls own : List Lib), ∃ more, owners own ls = own ++ more
  | [], own => ⟨[], by simp [owners]⟩
  | l :: ls, own => by
    rw [owners]
    split
    · exact owners_prefix ls own
    · obtain ⟨m, hm⟩ := owners_prefix ls (own ++ [l])
      exact ⟨l :: m, by rw [hm]; simp⟩

/-- C27: an object with the hash of an object seen before it at a larger link_map address has no record
of its own, whatever other objects there are. -/
theorem C27_collision_shares {page initial : Nat} (hp : 48 ≤ page) (hi : 0 < initial)
    {s : State} (ht : HTable.create page initial = .ok s.libTab) (hl : s.libs = [])
    {pre mid post : List Lib} {a b : Lib} (hh : linkMapHash a = linkMapHash b) (hab : b.lm < a.lm)
    (hown : ∀ c ∈ pre ++ mid ++ post, c.lm ≠ b.lm) :
    ∃ s' r rec, seeAll (pre ++ a :: mid ++ b :: post) s = .ok s' ∧
      s'.libTab.lookup (linkMapHash b) (linkMapEq b.lm) = .ok (some r) ∧
      s'.libs[r]? = some rec ∧ rec.map ≠ b.lm ∧ ∀ rec ∈ s'.libs, rec.map ≠ b.lm := by
  obtain ⟨s', h1, h2, h3⟩ := C27_records_in_general hp hi ht hl (pre ++ a :: mid ++ b :: post)
  have app : ∀ (xs ys own : List Lib), owners own (xs ++ ys) = owners (owners own xs) ys := by
    intro xs
    induction xs with
    | nil => intro ys own; rfl
    | cons x xs ih => intro ys own; exact ih ys _
  have sub : ∀ (xs own : List Lib) (c : Lib), c ∈ owners own xs → c ∈ own ∨ c ∈ xs := by
    intro xs
    induction xs with
    | nil => intro own c hc; exact Or.inl hc
    | cons x xs ih =>
      intro own c hc
      rcases ih _ c hc with h | h
      · split at h
        · exact Or.inl h
        · rcases List.mem_append.1 h with h | h
          · exact Or.inl h
          · exact Or.inr (by rw [List.mem_singleton.1 h]; simp)
      · exact Or.inr (List.mem_cons_of_mem _ h)
  have has : ∃ c ∈ owners [] (pre ++ a :: mid), confused c b := by
    rw [app]
    have : ∃ c ∈ (if ∃ c ∈ owners [] pre, confused c a then owners [] pre
        else owners [] pre ++ [a]), confused c b := by
      split
      · rename_i h
        obtain ⟨c, hc, e1, e2⟩ := h
        exact ⟨c, hc, e1.trans hh, BitVec.le_trans (BitVec.le_of_lt hab) e2⟩
      · exact ⟨a, by simp, hh, BitVec.le_of_lt hab⟩
    obtain ⟨c, hc, hcc⟩ := this
    obtain ⟨m, hm⟩ := owners_prefix mid (if ∃ c ∈ owners [] pre, confused c a then owners [] pre
        else owners [] pre ++ [a])
    refine ⟨c, ?_, hcc⟩
    rw [owners, hm]
    exact List.mem_append_left _ hc
  have hall : owners [] (pre ++ a :: mid ++ b :: post) =
      owners (owners [] (pre ++ a :: mid)) post := by
    rw [app, owners, if_pos has]
  have hno : ∀ c ∈ owners [] (pre ++ a :: mid ++ b :: post), c.lm ≠ b.lm := by
    intro c hc
    rw [hall] at hc
    have hm : c ∈ pre ++ a :: mid ∨ c ∈ post := by
      rcases sub _ _ _ hc with h | h
      · rcases sub _ _ _ h with h | h
        · cases h
        · exact Or.inl h
      · exact Or.inr h
    by_cases e : c = a
    · rw [e]; exact fun h => BitVec.lt_irrefl _ (h ▸ hab)
    · refine hown c ?_
      simp only [List.mem_append, List.mem_cons] at hm ⊢
      tauto
  have hno' : ∀ rec ∈ s'.libs, rec.map ≠ b.lm := by
    intro rec hrec
    have : rec.map ∈ (owners [] (pre ++ a :: mid ++ b :: post)).map (·.lm) := by
      rw [← h2]; exact List.mem_map_of_mem hrec
    obtain ⟨c, hc, e⟩ := List.mem_map.1 this
    exact e ▸ hno c hc
  rcases h3 b with ⟨r, c, rec, g1, g2, g3, g4, g5⟩ | ⟨g1, g2⟩
  · exact ⟨s', r, rec, h1, g1, g4, hno' rec (List.mem_of_getElem? g4), hno'⟩
  · obtain ⟨c, hc, hcc⟩ := has
    refine absurd hcc (g2 c ?_)
    obtain ⟨m, hm⟩ := owners_prefix post (owners [] (pre ++ a :: mid))
    rw [hall, hm]
    exact List.mem_append_left _ hc

/-- Three objects meeting the hypotheses: the second and the third have the same hash. -/
example : ∃ s' r rec,
    seeAll ([Demo.libc] ++ Demo.twinA :: [] ++ Demo.twinB :: [])
      { State.start [] (fun _ => 0) (fun _ => true) with
        libTab := HTable.blank 170 } = .ok s' ∧
    s'.libTab.lookup (linkMapHash Demo.twinB) (linkMapEq Demo.twinB.lm) = .ok (some r) ∧
    s'.libs[r]? = some rec ∧ rec.map ≠ Demo.twinB.lm := by
  obtain ⟨s', r, rec, h1, h2, h3, h4, -⟩ := C27_collision_shares (page := 4096) (initial := 128)
    (by omega) (by omega)
    (s := { State.start [] (fun _ => 0) (fun _ => true) with libTab := HTable.blank 170 })
    (by rfl) rfl (pre := [Demo.libc]) (mid := []) (post := []) (a := Demo.twinA)
    (b := Demo.twinB) C27_collision_refuted.2.1 (by decide)
    (by intro c hc; simp at hc; subst hc; decide)
  exact ⟨s', r, rec, h1, h2, h3, h4⟩

/-- C27, all executions, whatever objects get loaded and whatever their hashes.  Once GOTCHA is
initialised its library records are those of objects that were loaded at some time, in an order in
which none is confused with an earlier one, and the record found for an object is the record of an
object it is confused with; none is found only when no object with a record is confused with it. -/
theorem C27_records_in_any_history {env : Env} (hp : 48 ≤ env.page) {libs : List Lib}
    {mem : Addr → Addr} {wr : Addr → Bool} {ops : List Op} {s os}
    (hr : run env ops (State.start libs mem wr) = .ok (s, os)) (hi : s.inited = true) :
    ∃ own : List Lib,
      (∀ a ∈ own, a ∈ libs ∨ ∃ op ∈ ops, a ∈ loadsOf op) ∧
      own.Pairwise (fun a b => ¬ confused a b) ∧
      s.libs.map (·.map) = own.map (·.lm) ∧
      ∀ l, (∃ r a rec, s.libTab.lookup (linkMapHash l) (linkMapEq l.lm) = .ok (some r) ∧
          own[r]? = some a ∧ confused a l ∧ s.libs[r]? = some rec ∧ rec.map = a.lm) ∨
        (s.libTab.lookup (linkMapHash l) (linkMapEq l.lm) = .ok none ∧
          ∀ a ∈ own, ¬ confused a l) := by
  have h0 : RInv (fun a => a ∈ libs ∨ ∃ op ∈ ops, a ∈ loadsOf op) (State.start libs mem wr) :=
    ⟨fun h => by simp [State.start] at h, fun _ => rfl, fun l hl => Or.inl hl⟩
  have h1 := run_rinv hp ops h0 (fun op ho l hl => Or.inr ⟨op, ho, hl⟩) hr
  obtain ⟨own, h2, h3, h4⟩ := h1.recs hi
  exact ⟨own, h3, h4, h2.recs, recs_lookup h2⟩

/-- The run of `C27_collision_refuted` is such an execution: the only object the second twin is
confused with is the first. -/
example : ∃ s os, run Demo.env [.wrap [⟨nm "foo", 0x50a, 10⟩] (some Demo.B)]
      (State.start [Demo.twinA, Demo.libc, Demo.twinB] (fun _ => 0) (fun _ => true)) = .ok (s, os) ∧
    s.libs.length = 2 := by
  have h : (match run Demo.env [.wrap [⟨nm "foo", 0x50a, 10⟩] (some Demo.B)]
      (State.start [Demo.twinA, Demo.libc, Demo.twinB] (fun _ => 0) (fun _ => true)) with
    | .ok (s, _) => decide (s.libs.length = 2)
    | .error _ => false) = true := by decide +kernel
  split at h
  · rename_i s os e
    exact ⟨s, os, e, by simpa using h⟩
  · cases h

end Gotcha.Props
