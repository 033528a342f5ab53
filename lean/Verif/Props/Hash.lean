import Verif.Proof.Hash
import Verif.Spec.Map
import Mathlib.Tactic.Ring
/-
C28–C32: the hash table.
-/
namespace Gotcha
open Spec
variable {K D : Type}

/-- A client's sequence of calls on a table whose `hashfunc` is `hash` and whose
`keycmp(a,b) == 0` is `cmp a b` (src/hash.c:151-200). -/
def tableRun (hash : K → BitVec 32) (cmp : K → K → Bool) :
    HTable K D → List (MapOp K D) → Except Fault (List (MapObs D) × HTable K D)
  | t, [] => .ok ([], t)
  | t, .add k d :: ops =>
    match t.addto k d (hash k) with
    | .error f => .error f
    | .ok t' =>
      match tableRun hash cmp t' ops with
      | .error f => .error f
      | .ok (obs, tf) => .ok (.added :: obs, tf)
  | t, .remove k :: ops =>
    match t.removefrom (hash k) (fun s => cmp s k) with
    | .error f => .error f
    | .ok (t', b) =>
      match tableRun hash cmp t' ops with
      | .error f => .error f
      | .ok (obs, tf) => .ok (.removed b :: obs, tf)
  | t, .lookup k :: ops =>
    match t.lookup (hash k) (fun s => cmp s k) with
    | .error f => .error f
    | .ok r =>
      match tableRun hash cmp t ops with
      | .error f => .error f
      | .ok (obs, tf) => .ok (.found r :: obs, tf)

/-- `create_hashtable` followed by the calls. -/
def tableHistory (page initial : Nat) (hash : K → BitVec 32) (cmp : K → K → Bool)
    (ops : List (MapOp K D)) : Except Fault (List (MapObs D) × HTable K D) :=
  match HTable.create page initial with
  | .error f => .error f
  | .ok t => tableRun hash cmp t ops

/-- The associations held by the slots in use, in slot order. -/
def stored (t : HTable K D) : List (K × D) :=
  t.slots.filterMap (fun e => if e.status = .inuse then
    match e.key, e.data with
    | some k, some d => some (k, d)
    | _, _ => none
    else none)

/-- Number of slots in use. -/
def inUse (t : HTable K D) : Nat := t.slots.countP (fun e => e.status = .inuse)

namespace HashProps
open HTable

/-- Table state reachable with client hash function `hash`. -/
structure Good (hash : K → BitVec 32) (t : HTable K D) (items : List (Item K D)) : Prop where
  repr : ∃ L, Repr t L items
  hashed : ∀ it ∈ items, it.1 = hash it.2.1
  half : t.count ≤ t.slots.length / 2 + 1

def strip (items : List (Item K D)) : List (K × D) := items.map (·.2)

theorem stored_eq (t : HTable K D) : stored t = strip (slotItems t.slots) := by
  unfold stored strip slotItems
  rw [List.map_filterMap]
  apply List.filterMap_congr
  intro e _
  unfold item?
  split
  · cases e.key <;> cases e.data <;> rfl
  · rfl

theorem Good.stored_perm {hash : K → BitVec 32} {t : HTable K D} {items}
    (g : Good hash t items) : (stored t).Perm (strip items) := by
  obtain ⟨L, r⟩ := g.repr
  rw [stored_eq]
  exact r.slot_perm.map _

theorem create_good (hash : K → BitVec 32) {page initial : Nat} (hp : 48 ≤ page)
    (hi : 0 < initial) : ∃ t : HTable K D, create page initial = .ok t ∧ Good hash t [] := by
  have hpp : page / 48 ≠ 0 := by omega
  unfold create entrySize
  simp only [hpp, if_false]
  refine ⟨_, rfl, ⟨[], blank_repr ?_⟩, by simp, by simp [blank]⟩
  split <;> omega

theorem addto_good {hash : K → BitVec 32} {t : HTable K D} {items} (g : Good hash t items)
    (k : K) (d : D) : ∃ t' items', t.addto k d (hash k) = .ok t' ∧
      Good hash t' ((hash k, k, d) :: items') ∧ items'.Perm items := by
  obtain ⟨L, r⟩ := g.repr
  obtain ⟨t', L', items', h1, r', hp, hl, hh⟩ := addto_repr r k d (hash k)
  refine ⟨t', items', h1, ⟨⟨L', r'⟩, ?_, hh⟩, hp⟩
  intro it hit
  rcases List.mem_cons.1 hit with rfl | h
  · rfl
  · exact g.hashed it (hp.mem_iff.1 h)

variable {cmp : K → K → Bool}

theorem matches_iff {hash : K → BitVec 32} {items : List (Item K D)}
    (hh : ∀ it ∈ items, it.1 = hash it.2.1) (hc : ∀ a b, cmp a b = true ↔ a = b) (k : K)
    {it : Item K D} (hit : it ∈ items) :
    Matches (hash k) (fun s => cmp s k) it ↔ it.2.1 = k := by
  unfold Matches
  simp only [hc]
  constructor
  · exact fun h => h.2
  · intro h; exact ⟨by rw [hh it hit, h], h⟩

theorem lookup_good {hash : K → BitVec 32} {t : HTable K D} {items} (g : Good hash t items)
    (hc : ∀ a b, cmp a b = true ↔ a = b) (k : K) :
    (∃ d, t.lookup (hash k) (fun s => cmp s k) = .ok (some d) ∧ (k, d) ∈ strip items) ∨
    (t.lookup (hash k) (fun s => cmp s k) = .ok none ∧ ∀ d, (k, d) ∉ strip items) := by
  obtain ⟨L, r⟩ := g.repr
  rcases lookup_repr r (hash k) (fun s => cmp s k) with ⟨it, h1, h2, h3⟩ | ⟨h1, h2⟩
  · left
    have := (matches_iff g.hashed hc k h2).1 h3
    refine ⟨it.2.2, h1, ?_⟩
    rw [← this]
    exact List.mem_map_of_mem h2
  · right
    refine ⟨h1, ?_⟩
    intro d hd
    obtain ⟨it, hit, he⟩ := List.mem_map.1 hd
    exact h2 it hit ((matches_iff g.hashed hc k hit).2 (by rw [he]))

theorem remove_good {hash : K → BitVec 32} {t : HTable K D} {items} (g : Good hash t items)
    (hc : ∀ a b, cmp a b = true ↔ a = b) (k : K) :
    (∃ t' d IA IB, t.removefrom (hash k) (fun s => cmp s k) = .ok (t', true) ∧
      items = IA ++ (hash k, k, d) :: IB ∧ Good hash t' (IA ++ IB)) ∨
    (t.removefrom (hash k) (fun s => cmp s k) = .ok (t, false) ∧
      ∀ d, (k, d) ∉ strip items) := by
  obtain ⟨L, r⟩ := g.repr
  rcases removefrom_repr r (hash k) (fun s => cmp s k) with
    ⟨i, it, t', A, B, IA, IB, h1, h2, h3, h4, h5, h6, h7, h8, _⟩ | ⟨h1, h2⟩
  · left
    have hmem : it ∈ items := by rw [h3]; simp
    have hk := (matches_iff g.hashed hc k hmem).1 h5
    refine ⟨t', it.2.2, IA, IB, h1, ?_, ⟨⟨_, h6⟩, ?_, ?_⟩⟩
    · rw [h3]; congr 2; have hh := g.hashed _ hmem
      obtain ⟨a, b, c⟩ := it
      simp only at hk hh ⊢
      rw [hh, hk]
    · intro x hx; apply g.hashed; rw [h3]; simp at hx ⊢; tauto
    · have := g.half
      have c1 := r.count_items
      have c2 := h6.count_items
      rw [h3] at c1
      simp at c1 c2
      omega
  · right
    refine ⟨h1, ?_⟩
    intro d hd
    obtain ⟨it, hit, he⟩ := List.mem_map.1 hd
    exact h2 it hit ((matches_iff g.hashed hc k hit).2 (by rw [he]))

theorem BagRun_perm {ops : List (MapOp K D)} : ∀ {obs b b1 b'}, b.Perm b1 → BagRun b ops obs b' →
    BagRun b1 ops obs b' := by
  induction ops with
  | nil => intro obs b b1 b' hp h; cases h with | nil h => exact .nil (hp.symm.trans h)
  | cons op ops ih =>
    intro obs b b1 b' hp h
    cases h with
    | add h => exact .add (ih (hp.cons _) h)
    | removeHit h1 h2 => exact .removeHit (hp.symm.trans h1) h2
    | removeMiss h1 h2 => exact .removeMiss (fun d hd => h1 d (hp.mem_iff.2 hd)) (ih hp h2)
    | lookupHit h1 h2 => exact .lookupHit (hp.mem_iff.1 h1) (ih hp h2)
    | lookupMiss h1 h2 => exact .lookupMiss (fun d hd => h1 d (hp.mem_iff.2 hd)) (ih hp h2)

/-- Every run of the table is a run of the bag specification. -/
theorem run_good {hash : K → BitVec 32} (hc : ∀ a b, cmp a b = true ↔ a = b)
    (ops : List (MapOp K D)) : ∀ {t : HTable K D} {items}, Good hash t items →
    ∃ obs t' items', tableRun hash cmp t ops = .ok (obs, t') ∧ Good hash t' items' ∧
      BagRun (strip items) ops obs (strip items') := by
  induction ops with
  | nil => intro t items g; exact ⟨[], t, items, rfl, g, .nil (List.Perm.refl _)⟩
  | cons op ops ih =>
    intro t items g
    cases op with
    | add k d =>
      obtain ⟨t1, items1, h1, g1, hp⟩ := addto_good g k d
      obtain ⟨obs, t2, items2, h2, g2, b2⟩ := ih g1
      refine ⟨.added :: obs, t2, items2, by simp [tableRun, h1, h2], g2, .add ?_⟩
      exact BagRun_perm ((hp.map _).cons _) b2
    | remove k =>
      rcases remove_good g hc k with ⟨t1, d, IA, IB, h1, h3, g1⟩ | ⟨h1, h3⟩
      · obtain ⟨obs, t2, items2, h2, g2, b2⟩ := ih g1
        refine ⟨.removed true :: obs, t2, items2, by simp [tableRun, h1, h2], g2,
          .removeHit (d := d) ?_ b2⟩
        rw [h3]
        simp only [strip, List.map_append, List.map_cons]
        exact List.perm_middle
      · obtain ⟨obs, t2, items2, h2, g2, b2⟩ := ih g
        exact ⟨.removed false :: obs, t2, items2, by simp [tableRun, h1, h2], g2,
          .removeMiss h3 b2⟩
    | lookup k =>
      rcases lookup_good g hc k with ⟨d, h1, h3⟩ | ⟨h1, h3⟩
      · obtain ⟨obs, t2, items2, h2, g2, b2⟩ := ih g
        exact ⟨.found (some d) :: obs, t2, items2, by simp [tableRun, h1, h2], g2,
          .lookupHit h3 b2⟩
      · obtain ⟨obs, t2, items2, h2, g2, b2⟩ := ih g
        exact ⟨.found none :: obs, t2, items2, by simp [tableRun, h1, h2], g2,
          .lookupMiss h3 b2⟩

/-- A bag without repeated keys behaves as a map. -/
theorem bag_map [DecidableEq K] {ops : List (MapOp K D)} : ∀ {obs b b'} {m : K → Option D},
    BagRun b ops obs b' → (∀ k d, (k, d) ∈ b ↔ m k = some d) → (b.map (·.1)).Nodup →
    FreshAdds m ops → obs = mapRun m ops := by
  induction ops with
  | nil => intro obs b b' m h _ _ _; cases h; rfl
  | cons op ops ih =>
    intro obs b b' m h hm hn hf
    obtain ⟨hf1, hf2⟩ := hf
    cases h with
    | add h =>
      rename_i k d obs
      unfold mapRun; simp only [mapStep] at hf2 ⊢
      have hk : m k = none := hf1 k d rfl
      congr 1
      refine ih h ?_ ?_ hf2
      · intro x y
        simp only [List.mem_cons, Prod.mk.injEq]
        by_cases hx : x = k
        · subst hx
          simp only [true_and, if_true, Option.some.injEq]
          constructor
          · rintro (h | h)
            · exact h.symm
            · rw [hm] at h; rw [hk] at h; cases h
          · intro h; left; exact h.symm
        · simp [hx, hm]
      · rw [List.map_cons, List.nodup_cons]
        refine ⟨?_, hn⟩
        intro hc
        obtain ⟨⟨a, c⟩, h1, h2⟩ := List.mem_map.1 hc
        simp at h2; subst h2
        rw [hm] at h1; rw [hk] at h1; cases h1
    | removeHit hp h =>
      rename_i b1 k d obs
      unfold mapRun; simp only [mapStep] at hf2 ⊢
      have hkd : m k = some d := (hm k d).1 (hp.mem_iff.2 (by simp))
      have hn1 : (((k, d) :: b1).map (·.1)).Nodup := (hp.map _).nodup_iff.1 hn
      rw [List.map_cons, List.nodup_cons] at hn1
      congr 1
      · simp [hkd]
      · refine ih h ?_ hn1.2 hf2
        intro x y
        have h2 := hp.mem_iff (a := (x, y))
        rw [hm] at h2
        by_cases hx : x = k
        · subst hx
          simp only [if_true, reduceCtorEq, iff_false]
          intro hc
          exact hn1.1 (List.mem_map.2 ⟨_, hc, rfl⟩)
        · rw [if_neg hx, h2]; simp [hx]
    | removeMiss hm' h =>
      rename_i k obs
      unfold mapRun; simp only [mapStep] at hf2 ⊢
      have hk : m k = none := by
        cases hk : m k with
        | none => rfl
        | some d => exact absurd ((hm k d).2 hk) (hm' d)
      congr 1
      · simp [hk]
      · have hmm : (fun x => if x = k then none else m x) = m := by
          funext x; by_cases hx : x = k
          · subst hx; simp [hk]
          · simp [hx]
        rw [hmm] at hf2 ⊢
        exact ih h hm hn hf2
    | lookupHit hm' h =>
      rename_i k d obs
      unfold mapRun; simp only [mapStep] at hf2 ⊢
      rw [← ih h hm hn hf2, (hm k d).1 hm']
    | lookupMiss hm' h =>
      rename_i k obs
      unfold mapRun; simp only [mapStep] at hf2 ⊢
      have hk : m k = none := by
        cases hk : m k with
        | none => rfl
        | some d => exact absurd ((hm k d).2 hk) (hm' d)
      rw [← ih h hm hn hf2, hk]

theorem inUse_eq {hash : K → BitVec 32} {t : HTable K D} {items} (g : Good hash t items) :
    inUse t = t.count := by
  obtain ⟨L, r⟩ := g.repr
  rw [r.count_items, ← r.slot_perm.length_eq]
  unfold inUse slotItems
  rw [List.length_filterMap_eq_countP]
  apply List.countP_congr
  intro e he
  simp only [decide_eq_true_eq]
  constructor
  · intro hst
    obtain ⟨i, hi⟩ := List.mem_iff_getElem?.1 he
    obtain ⟨it, _, hat⟩ := r.mem_item (r.cover i e hi hst)
    simp only [itemAt, hi, Option.bind_some] at hat
    simp [hat]
  · intro h
    unfold item? at h
    by_contra hne
    simp [hne] at h

end HashProps

open HashProps HTable

/-- C28.  From a freshly created table, any sequence of additions of absent keys, removals and
lookups never faults and gives exactly the observations of a map — for every page size, initial
size, hash function (any collision pattern) and key comparison that is zero exactly on equal
keys. -/
theorem C28_table_is_map [DecidableEq K] (page initial : Nat) (hp : 48 ≤ page)
    (hi : 0 < initial) (hash : K → BitVec 32) (cmp : K → K → Bool)
    (hc : ∀ a b, cmp a b = true ↔ a = b) (ops : List (MapOp K D))
    (hf : FreshAdds (fun _ => none) ops) :
    ∃ t, tableHistory page initial hash cmp ops = .ok (mapRun (fun _ => none) ops, t) := by
  obtain ⟨t0, h0, g0⟩ := create_good (D := D) hash hp hi
  obtain ⟨obs, t', items', h1, g1, b1⟩ := run_good hc ops g0
  refine ⟨t', ?_⟩
  have := bag_map b1 (m := fun _ => none) (by simp [strip]) (by simp [strip]) hf
  simp [tableHistory, h0, h1, this]

/-- Non-vacuity: colliding keys with a removal in between. -/
example : FreshAdds (fun _ => none) [MapOp.add 1 10, .add 2 20, .remove 1, .lookup 2, .add (1:Nat) 11,
    .lookup 1, .lookup (3:Nat)] := by
  simp [FreshAdds, mapStep]

example : (tableHistory 96 2 (fun _ : Nat => 7#32) (· == ·)
    [MapOp.add 1 10, .add 2 20, .remove 1, .lookup 2, .add 1 11, .lookup 1, .lookup 3]).map (·.1)
    = .ok [.added, .added, .removed true, .found (some 20), .added, .found (some 11),
        .found none] := by decide

/-- C29 (a).  In every reachable table (any history, repeated keys included) the entry count is
the number of slots in use, every slot in use holds an association, and the count is at most half
the size plus one.  No history faults (no probing loop runs forever). -/
theorem C29_count_and_load (page initial : Nat) (hp : 48 ≤ page) (hi : 0 < initial)
    (hash : K → BitVec 32) (cmp : K → K → Bool) (hc : ∀ a b, cmp a b = true ↔ a = b)
    (ops : List (MapOp K D)) :
    ∃ obs t, tableHistory page initial hash cmp ops = .ok (obs, t) ∧
      t.count = inUse t ∧ (stored t).length = t.count ∧ t.count ≤ t.slots.length / 2 + 1 := by
  obtain ⟨t0, h0, g0⟩ := create_good (D := D) hash hp hi
  obtain ⟨obs, t', items', h1, g1, b1⟩ := run_good hc ops g0
  refine ⟨obs, t', by simp [tableHistory, h0, h1], (inUse_eq g1).symm, ?_, g1.half⟩
  rw [g1.stored_perm.length_eq, strip, List.length_map]
  obtain ⟨L, r⟩ := g1.repr
  exact r.count_items.symm

/-- Not vacuous: keys that all collide, with removals, in a table that has to grow. -/
example : ∃ obs t, tableHistory 96 2 (fun _ : Nat => 7#32) (· == ·)
    [MapOp.add 1 10, .add 2 20, .remove 1, .add 3 30, .add 4 40, .add (5 : Nat) 50] = .ok (obs, t) ∧
    t.count = inUse t ∧ (stored t).length = t.count ∧ t.count ≤ t.slots.length / 2 + 1 :=
  C29_count_and_load 96 2 (by decide) (by decide) _ _ (by intro a b; exact beq_iff_eq) _

/-- C29 (b).  In every reachable table an addition succeeds, stores its association and keeps
every other one (nothing is overwritten). -/
theorem C29_add_stores (page initial : Nat) (hp : 48 ≤ page) (hi : 0 < initial)
    (hash : K → BitVec 32) (cmp : K → K → Bool) (hc : ∀ a b, cmp a b = true ↔ a = b)
    (ops : List (MapOp K D)) (obs : List (MapObs D)) (t : HTable K D)
    (hr : tableHistory page initial hash cmp ops = .ok (obs, t)) (k : K) (d : D) :
    ∃ t', t.addto k d (hash k) = .ok t' ∧ (stored t').Perm ((k, d) :: stored t) := by
  obtain ⟨t0, h0, g0⟩ := create_good (D := D) hash hp hi
  obtain ⟨obs', t1, items', h1, g1, b1⟩ := run_good hc ops g0
  simp only [tableHistory, h0, h1, Except.ok.injEq, Prod.mk.injEq] at hr
  obtain ⟨rfl, rfl⟩ := hr
  obtain ⟨t', items2, h2, g2, hp2⟩ := addto_good g1 k d
  refine ⟨t', h2, g2.stored_perm.trans ?_⟩
  simp only [strip, List.map_cons]
  exact ((hp2.map _).trans g1.stored_perm.symm).cons _

example : ∃ obs t, tableHistory 96 2 (fun _ : Nat => 7#32) (· == ·)
    [MapOp.add 1 10, .add 2 20, .add 3 30] = .ok (obs, t) ∧ t.count = 3 ∧ t.slots.length = 4 :=
  ⟨_, _, rfl, rfl, rfl⟩

/-- C30.  Growing (or shrinking) a reachable table to any positive size not smaller than its entry
count keeps exactly the same associations, and every lookup gives an association of the key in the
grown table exactly when it did before; with unique keys the lookup results are identical. -/
theorem C30_grow_preserves (page initial : Nat) (hp : 48 ≤ page) (hi : 0 < initial)
    (hash : K → BitVec 32) (cmp : K → K → Bool) (hc : ∀ a b, cmp a b = true ↔ a = b)
    (ops : List (MapOp K D)) (obs : List (MapObs D)) (t : HTable K D)
    (hr : tableHistory page initial hash cmp ops = .ok (obs, t))
    (n : Nat) (hn : 0 < n) (hcn : t.count ≤ n) :
    ∃ t', t.grow n = .ok t' ∧ t'.slots.length = n ∧ t'.count = t.count ∧
      (stored t').Perm (stored t) ∧
      (((stored t).map (·.1)).Nodup → ∀ k,
        t'.lookup (hash k) (fun s => cmp s k) = t.lookup (hash k) (fun s => cmp s k)) := by
  obtain ⟨t0, h0, g0⟩ := create_good (D := D) hash hp hi
  obtain ⟨obs', t1, items', h1, g1, b1⟩ := run_good hc ops g0
  simp only [tableHistory, h0, h1, Except.ok.injEq, Prod.mk.injEq] at hr
  obtain ⟨rfl, rfl⟩ := hr
  obtain ⟨L, r⟩ := g1.repr
  obtain ⟨t', L', items2, h2, r2, hp2, hl2⟩ := grow_repr r n hn (by rw [← r.count_items]; exact hcn)
  have hst : (stored t').Perm (strip items2) := by
    rw [stored_eq]; exact r2.slot_perm.map _
  have hp3 : (strip items2).Perm (strip items') := hp2.map _
  refine ⟨t', h2, hl2, by rw [r2.count_items, r.count_items, hp2.length_eq],
    hst.trans (hp3.trans g1.stored_perm.symm), ?_⟩
  intro hnd k
  have hnd' : ((strip items').map (·.1)).Nodup := (g1.stored_perm.map _).nodup_iff.1 hnd
  have g2 : ∀ k, (∃ d, t'.lookup (hash k) (fun s => cmp s k) = .ok (some d) ∧ (k, d) ∈ strip items2) ∨
      (t'.lookup (hash k) (fun s => cmp s k) = .ok none ∧ ∀ d, (k, d) ∉ strip items2) := by
    intro k
    have hh : ∀ it ∈ items2, it.1 = hash it.2.1 := fun it h => g1.hashed it (hp2.mem_iff.1 h)
    rcases lookup_repr r2 (hash k) (fun s => cmp s k) with ⟨it, q1, q2, q3⟩ | ⟨q1, q2⟩
    · left
      refine ⟨it.2.2, q1, ?_⟩
      rw [← (matches_iff hh hc k q2).1 q3]; exact List.mem_map_of_mem q2
    · right
      refine ⟨q1, ?_⟩
      intro d hd
      obtain ⟨it, hit, he⟩ := List.mem_map.1 hd
      exact q2 it hit ((matches_iff hh hc k hit).2 (by rw [he]))
  rcases g2 k with ⟨d, q1, q2⟩ | ⟨q1, q2⟩ <;> rcases lookup_good g1 hc k with ⟨d', q3, q4⟩ | ⟨q3, q4⟩
  · rw [q1, q3]
    have hd : d = d' := by
      have m1 := hp3.mem_iff.1 q2
      have := List.inj_on_of_nodup_map hnd' m1 q4 rfl
      exact (Prod.mk.injEq _ _ _ _ ▸ this).2
    rw [hd]
  · exact absurd (hp3.mem_iff.1 q2) (q4 d)
  · exact absurd (hp3.mem_iff.2 q4) (q2 d')
  · rw [q1, q3]

example : ∃ obs t, tableHistory 96 2 (fun k : Nat => BitVec.ofNat 32 (k * 5)) (· == ·)
    [MapOp.add 1 10, .add 2 20, .remove 1, .add 3 30] = .ok (obs, t) ∧ t.count ≤ 2 ∧
    ((stored t).map (·.1)).Nodup := ⟨_, _, rfl, by decide, by decide⟩

/-- Callback of a client that logs every entry it is shown and removes it when `del` says so (the
iterate-and-delete idiom of src/gotcha_dl.c:24-44). -/
def visitCb (hash : K → BitVec 32) (cmp : K → K → Bool) (del : K → D → Bool)
    (key : Option K) (data : Option D) (s : HTable K D × List (K × D)) :
    Except Fault ((HTable K D × List (K × D)) × Bool) :=
  match key, data with
  | some k, some d =>
    if del k d then
      match s.1.removefrom (hash k) (fun x => cmp x k) with
      | .error f => .error f
      | .ok (t', _) => .ok ((t', s.2 ++ [(k, d)]), false)
    else .ok ((s.1, s.2 ++ [(k, d)]), false)
  | _, _ => .error .nullDeref

/-- C31.  Iterating over any reachable table with unique keys calls back exactly once for every
stored association, also when the callback deletes any subset of the entries it is visiting; at the
end exactly the others remain.  The loop ends after `entry_count` steps and never faults. -/
theorem C31_foreach_visits_once (page initial : Nat) (hp : 48 ≤ page) (hi : 0 < initial)
    (hash : K → BitVec 32) (cmp : K → K → Bool) (hc : ∀ a b, cmp a b = true ↔ a = b)
    (ops : List (MapOp K D)) (obs : List (MapObs D)) (t : HTable K D)
    (hr : tableHistory page initial hash cmp ops = .ok (obs, t))
    (hu : ((stored t).map (·.1)).Nodup) (del : K → D → Bool) :
    ∃ t' log, foreachEntry (fun s => s.1) (visitCb hash cmp del) t.count t.head (t, []) =
        .ok (t', log) ∧
      log.Perm (stored t) ∧
      (stored t').Perm ((stored t).filter (fun kd => !del kd.1 kd.2)) := by
  obtain ⟨t0, h0, g0⟩ := create_good (D := D) hash hp hi
  obtain ⟨obs', t1, items, h1, g1, b1⟩ := run_good hc ops g0
  simp only [tableHistory, h0, h1, Except.ok.injEq, Prod.mk.injEq] at hr
  obtain ⟨rfl, rfl⟩ := hr
  have hu' : ((strip items).map (·.1)).Nodup := (g1.stored_perm.map _).nodup_iff.1 hu
  obtain ⟨L, r⟩ := g1.repr
  let Inv : HTable K D × List (K × D) → Option Nat → List (Item K D) → Prop := fun s h its =>
    ∃ A B IA, Repr s.1 (A ++ B) (IA ++ its) ∧ IA.length = A.length ∧ h = B.head? ∧
      s.2 ++ strip its = strip items ∧ s.2.filter (fun kd => !del kd.1 kd.2) = strip IA ∧
      (∀ it ∈ IA ++ its, it.1 = hash it.2.1) ∧ ((strip (IA ++ its)).map (·.1)).Nodup
  have key := foreach_inv (fun s : HTable K D × List (K × D) => s.1) (visitCb hash cmp del) Inv
    (by
      rintro s h ⟨A, B, IA, hr, hl, hh, -⟩
      have h1 := hr.length
      simp only [List.length_append, List.append_nil] at h1
      have : B = [] := List.eq_nil_of_length_eq_zero (by omega)
      rw [hh, this]; rfl)
    (by
      rintro ⟨t, log⟩ h it its ⟨A, B, IA, hr, hl, hh, hlog, hkeep, hhash, hnd⟩
      simp only at hr hlog hkeep ⊢
      have h1 := hr.length
      simp only [List.length_append, List.length_cons] at h1
      obtain ⟨i, B, rfl⟩ : ∃ i B', B = i :: B' := by
        cases B with
        | nil => simp at h1; omega
        | cons i B => exact ⟨i, B, rfl⟩
      obtain ⟨IA', it', IB', q1, q2, q3, q4⟩ := mem_split_map hr.items
      have hlen' : IA'.length = A.length := by
        have := congrArg List.length q2; simpa using this.symm
      obtain ⟨rfl, hq⟩ := List.append_inj q1 (by omega)
      obtain ⟨rfl, rfl⟩ := List.cons.inj hq
      obtain ⟨e, he, hst, hh1, hk, hd⟩ := itemAt_inuse q3
      have hmid := linked_mid he hr.linked
      by_cases hdel : del it.2.1 it.2.2 = true
      · -- deleted
        have hmatch : Matches (hash it.2.1) (fun s => cmp s it.2.1) it :=
          (matches_iff hhash hc _ (by simp)).2 rfl
        rcases removefrom_repr hr (hash it.2.1) (fun s => cmp s it.2.1) with
          ⟨j, jt, t', A', B', JA, JB, r1, r2, r3, r4, r5, r6, r7, r8, e1, e2, r9, r10, r11⟩ | ⟨_, r2⟩
        · have hjt : jt = it := by
            have hm : jt ∈ IA ++ it :: its := by rw [r3]; simp
            have h5 := (matches_iff hhash hc it.2.1 hm).1 r5
            have hnd2 : ((IA ++ it :: its).map (fun x : Item K D => x.2.1)).Nodup := by
              have : (IA ++ it :: its).map (fun x : Item K D => x.2.1) =
                  (strip (IA ++ it :: its)).map (·.1) := by
                simp [strip, Function.comp_def]
              rw [this]; exact hnd
            exact List.inj_on_of_nodup_map hnd2 hm (by simp) h5
          subst hjt
          have hitnd : (IA ++ jt :: its).Nodup := by
            have := List.Nodup.of_map _ hnd
            exact List.Nodup.of_map _ this
          have hJA : JA = IA ∧ JB = its := by
            have h3 := r3
            rw [List.append_cons, List.append_cons JA] at h3
            have hn1 : jt ∉ IA := by
              intro h
              rw [List.nodup_append] at hitnd; exact hitnd.2.2 jt h jt (by simp) rfl
            have hn2 : jt ∉ JA := by
              intro h
              rw [r3, List.nodup_append] at hitnd; exact hitnd.2.2 jt h jt (by simp) rfl
            have hidx : IA.length = JA.length := by
              have c1 : ∀ (X Y : List (Item K D)), jt ∉ X → ∀ Z W, jt ∉ Y →
                  X ++ jt :: Z = Y ++ jt :: W → X.length = Y.length := by
                intro X
                induction X with
                | nil =>
                  intro Y _ Z W hY h
                  cases Y with
                  | nil => rfl
                  | cons y Y => simp at h hY; exact absurd h.1 hY.1
                | cons x X ih =>
                  intro Y hX Z W hY h
                  cases Y with
                  | nil => simp at h hX; exact absurd h.1.symm hX.1
                  | cons y Y =>
                    simp at h hX hY
                    simp [ih Y hX.2 Z W hY.2 h.2]
              exact c1 IA JA hn1 its JB hn2 r3
            obtain ⟨h4, h5⟩ := List.append_inj r3 hidx
            exact ⟨h4.symm, (List.cons.inj h5).2.symm⟩
          obtain ⟨rfl, rfl⟩ := hJA
          obtain ⟨rfl, h6⟩ := List.append_inj r2 (by omega)
          obtain ⟨rfl, rfl⟩ := List.cons.inj h6
          rw [he] at r9; cases r9
          refine ⟨i, e, (t', log ++ [(jt.2.1, jt.2.2)]), e2, by rw [hh]; rfl, he, hk, hd, ?_, r10, ?_⟩
          · simp [visitCb, hdel, r1]
          · refine ⟨A, B, JA, r6, hl, ?_, ?_, ?_, ?_, ?_⟩
            · rw [r11, linked_head hmid.2]
            · simp only [strip, List.append_assoc] at hlog ⊢; simpa using hlog
            · simp [List.filter_append, hkeep, hdel]
            · intro x hx; apply hhash; simp at hx ⊢; tauto
            · refine hnd.sublist ?_
              simp only [strip]
              exact ((List.Sublist.append_left (List.sublist_cons_self _ _) _).map _).map _
        · exact absurd hmatch (r2 it (by simp))
      · -- kept
        refine ⟨i, e, (t, log ++ [(it.2.1, it.2.2)]), e, by rw [hh]; rfl, he, hk, hd, ?_, he, ?_⟩
        · simp [visitCb, hdel]
        · refine ⟨A ++ [i], B, IA ++ [it], by simpa using hr, by simp [hl], ?_, ?_, ?_, ?_, ?_⟩
          · rw [linked_head hmid.2]
          · simp only [strip, List.append_assoc] at hlog ⊢; simpa using hlog
          · simp [List.filter_append, hkeep, hdel, strip]
          · simpa using hhash
          · simpa [strip] using hnd)
    items t1.count t1.head (t1, []) (by rw [r.count_items])
    ⟨[], L, [], by simpa using r, rfl, linked_head r.linked, by simp, rfl,
      by simpa using g1.hashed, by simpa using hu'⟩
  obtain ⟨⟨t', log⟩, hrun, A, B, IA, hr', _, _, hlog, hkeep, _, _⟩ := key
  simp only [List.append_nil] at hr'
  have hlog' : log = strip items := by simpa [strip] using hlog
  refine ⟨t', log, hrun, ?_, ?_⟩
  · rw [hlog']; exact g1.stored_perm.symm
  · have : (stored t').Perm (strip IA) := by
      rw [stored_eq]; exact hr'.slot_perm.map _
    refine this.trans ?_
    rw [← hkeep]
    simp only [hlog']
    exact (g1.stored_perm.symm.filter _)

example : ∃ obs t, tableHistory 96 2 (fun _ : Nat => 7#32) (· == ·)
    [MapOp.add 1 10, .add 2 20, .remove 1, .add 3 30, .add 4 40] = .ok (obs, t) ∧
    ((stored t).map (·.1)).Nodup ∧ (stored t).length = 3 ∧
    (foreachEntry (fun s => s.1) (visitCb (fun _ : Nat => 7#32) (· == ·) (fun k _ => k != 3))
      t.count t.head (t, [])).map (fun s => (s.2.length, stored s.1)) = .ok (3, [(3, 30)]) :=
  ⟨_, _, rfl, by decide, by decide, by decide⟩

/-- C32, refuted part: a second addition of the same key does not replace the first one. -/
theorem C32_second_add_does_not_replace :
    (tableHistory 4096 85 (fun k : Nat => BitVec.ofNat 32 k) (· == ·)
      [MapOp.add 84 1, .add 84 2, .lookup 84]).map (·.1)
    = .ok [.added, .added, .found (some 1)] := by decide +kernel

/-- C32, refuted part: which of two additions of the same key is visible depends on unrelated
keys: with the same operations on key `84`, (a) by default the first addition wins, (b) after an
unrelated colliding key was removed the second one wins, (c) after unrelated additions made the
table grow the second one wins. -/
theorem C32_visible_entry_depends_on_other_keys :
    (tableHistory 4096 85 (fun k : Nat => BitVec.ofNat 32 k) (· == ·)
      [MapOp.add 84 1, .add 84 2, .lookup 84]).map (·.1)
    = .ok [.added, .added, .found (some 1)] ∧
    (tableHistory 4096 85 (fun k : Nat => BitVec.ofNat 32 k) (· == ·)
      [MapOp.add 169 0, .add 84 1, .remove 169, .add 84 2, .lookup 84]).map (·.1)
    = .ok [.added, .added, .removed true, .added, .found (some 2)] ∧
    ((tableHistory 4096 85 (fun k : Nat => BitVec.ofNat 32 k) (· == ·)
      (MapOp.add 84 1 :: .add 84 2 :: (List.range 42).map (fun i => .add (i + 1) 0) ++
        [.lookup 84])).map (fun r => r.1.getLast?))
    = .ok (some (.found (some 2))) := by
  refine ⟨by decide +kernel, by decide +kernel, by decide +kernel⟩

/-- C32, what holds (with repeated keys the table is only a bag): every history, repeated
additions included, is a run of the bag specification — a lookup returns the data of *some* stored
association of the key and fails only when there is none; a removal deletes exactly one. -/
theorem C32_table_is_bag (page initial : Nat) (hp : 48 ≤ page) (hi : 0 < initial)
    (hash : K → BitVec 32) (cmp : K → K → Bool) (hc : ∀ a b, cmp a b = true ↔ a = b)
    (ops : List (MapOp K D)) :
    ∃ obs t, tableHistory page initial hash cmp ops = .ok (obs, t) ∧
      BagRun [] ops obs (stored t) := by
  obtain ⟨t0, h0, g0⟩ := create_good (D := D) hash hp hi
  obtain ⟨obs, t', items', h1, g1, b1⟩ := run_good hc ops g0
  refine ⟨obs, t', by simp [tableHistory, h0, h1], ?_⟩
  have : ∀ {ops : List (MapOp K D)} {obs b b1 b2}, b1.Perm b2 → BagRun b ops obs b1 →
      BagRun b ops obs b2 := by
    intro ops obs b b1 b2 hp h
    induction h with
    | nil h => exact .nil (h.trans hp)
    | add _ ih => exact .add (ih hp)
    | removeHit h1 _ ih => exact .removeHit h1 (ih hp)
    | removeMiss h1 _ ih => exact .removeMiss h1 (ih hp)
    | lookupHit h1 _ ih => exact .lookupHit h1 (ih hp)
    | lookupMiss h1 _ ih => exact .lookupMiss h1 (ih hp)
  exact this g1.stored_perm.symm b1

/-- The comparison hypothesis is met by the string tables: `strcmp(a,b) == 0` on names. -/
example : ∀ a b : Name, (a == b) = true ↔ a = b := by intro a b; exact beq_iff_eq

/-! ### The hash of names -/

/-- The polynomial of Bernstein's hash, with signed characters: `5381 * 33^n + Σ c_i * 33^(n-1-i)`. -/
def bernstein : Name → Int
  | [] => 0
  | c :: s => c.toInt8.toInt * 33 ^ s.length + bernstein s

/-- C28: the hash of a name is this polynomial modulo 2^32. -/
theorem C28_strhash (s : Name) :
    ((strhash s).toNat : Int) = (5381 * 33 ^ s.length + bernstein s) % 2 ^ 32 := by
  have step : ∀ (h : BitVec 64) (c : UInt8), ∃ k : Int,
      (h * 33 + c.toBitVec.signExtend 64).toInt = h.toInt * 33 + c.toInt8.toInt + k * 2 ^ 64 := by
    intro h c
    have e : (c.toBitVec.signExtend 64).toInt = c.toInt8.toInt := by
      rw [BitVec.toInt_signExtend_of_le (by decide)]
      rfl
    have e1 : (h * 33).toInt = h.toInt * 33 - (h.toInt * 33 - (h * 33).toInt) := by omega
    obtain ⟨k1, hk1⟩ : ∃ k : Int, (h * 33).toInt = h.toInt * 33 + k * 2 ^ 64 := by
      rw [BitVec.toInt_mul, show (33 : BitVec 64).toInt = 33 from by decide]
      refine ⟨-Int.bdiv (h.toInt * 33) (2 ^ 64), ?_⟩
      have := Int.bmod_add_bdiv (h.toInt * 33) (2 ^ 64)
      simp only [Nat.cast_pow, Nat.cast_ofNat] at this
      omega
    refine ⟨k1 - Int.bdiv ((h * 33).toInt + c.toInt8.toInt) (2 ^ 64), ?_⟩
    rw [BitVec.toInt_add, e]
    have := Int.bmod_add_bdiv ((h * 33).toInt + c.toInt8.toInt) (2 ^ 64)
    simp only [Nat.cast_pow, Nat.cast_ofNat] at this
    omega
  have key : ∀ (s : Name) (h : BitVec 64), ∃ k : Int,
      (s.foldl (fun (h : BitVec 64) c => h * 33 + c.toBitVec.signExtend 64) h).toInt =
        h.toInt * 33 ^ s.length + bernstein s + k * 2 ^ 64 := by
    intro s
    induction s with
    | nil => intro h; exact ⟨0, by simp [bernstein]⟩
    | cons c s ih =>
      intro h
      obtain ⟨k1, h1⟩ := step h c
      obtain ⟨k2, h2⟩ := ih (h * 33 + c.toBitVec.signExtend 64)
      refine ⟨k1 * 33 ^ s.length + k2, ?_⟩
      rw [List.foldl_cons, h2, h1, bernstein, List.length_cons]
      ring
  obtain ⟨k, h⟩ := key s 5381
  unfold strhash
  rw [BitVec.truncate_eq_setWidth, BitVec.toNat_setWidth]
  generalize s.foldl (fun (h : BitVec 64) c => h * 33 + c.toBitVec.signExtend 64) 5381 = x at h
  rw [show (5381 : BitVec 64).toInt = 5381 from by decide] at h
  have hn := BitVec.toInt_eq_toNat_cond x
  generalize 5381 * (33 : Int) ^ s.length + bernstein s = v at *
  split at hn <;> omega

/-- The hash of "foo" as the compiled function gives it. -/
example : (strhash (nm "foo")).toNat = 193491849 ∧ bernstein (nm "foo") = 114852 := by decide +kernel

end Gotcha
