import Verif.Proof.TabMap
import Verif.Spec.Utils
/-
The doubly linked list of library records (lemmas for `Props/Utils`).
-/
namespace Gotcha.Utils
open Gotcha HTable Spec.Utils

/-- The links of a record, as an entry of a hash table (whose list lemmas are reused). -/
def toE (n : Option LibNode) : Entry Unit Unit :=
  { next := n.bind (·.next), prev := n.bind (·.prev) }

def DL (store : List (Option LibNode)) (head : Option Nat) (L : List Nat) : Prop :=
  Linked (store.map toE) none head L

/-- The library that a record is about. -/
def mapAt (store : List (Option LibNode)) (i : Nat) : Option Addr := (store[i]?.bind id).map (·.map)

theorem mapAt_some {store : List (Option LibNode)} {i : Nat} {a : Addr} (h : mapAt store i = some a) :
    ∃ n, store[i]? = some (some n) ∧ n.map = a := by
  unfold mapAt at h
  cases hs : store[i]? with
  | none => simp [hs] at h
  | some o =>
    cases o with
    | none => simp [hs] at h
    | some n => exact ⟨n, rfl, by simpa [hs] using h⟩

theorem mapAt_of {store : List (Option LibNode)} {i : Nat} {n : LibNode}
    (h : store[i]? = some (some n)) : mapAt store i = some n.map := by simp [mapAt, h]

structure LInv (hash : Addr → BitVec 32) (l : LibList) (L : List Nat) (S : List Addr) : Prop where
  tab : ∃ m, TabMap hash l.tab m ∧ ∀ a i, m a = some i ↔ i ∈ L ∧ mapAt l.store i = some a
  link : DL l.store l.head L
  nodup : L.Nodup
  maps : L.map (mapAt l.store) = S.map some
  nd : S.Nodup

variable {hash : Addr → BitVec 32} {l : LibList} {L : List Nat} {S : List Addr}

theorem LInv.mem (h : LInv hash l L S) {i : Nat} (hi : i ∈ L) :
    ∃ n, l.store[i]? = some (some n) ∧ n.map ∈ S := by
  have h1 : mapAt l.store i ∈ L.map (mapAt l.store) := List.mem_map_of_mem hi
  rw [h.maps] at h1
  obtain ⟨a, ha, e⟩ := List.mem_map.1 h1
  obtain ⟨n, h2, h3⟩ := mapAt_some e.symm
  exact ⟨n, h2, h3 ▸ ha⟩

theorem LInv.idx (h : LInv hash l L S) {a : Addr} (ha : a ∈ S) :
    ∃ i ∈ L, mapAt l.store i = some a := by
  have h1 : some a ∈ S.map some := List.mem_map_of_mem ha
  rw [← h.maps] at h1
  exact List.mem_map.1 h1

theorem LInv.get (h : LInv hash l L S) {A : List Addr} (hinj : ∀ a ∈ A, ∀ b ∈ A, hash a = hash b → a = b)
    (hS : ∀ a ∈ S, a ∈ A) {a : Addr} (ha : a ∈ A) :
    (a ∈ S → ∃ i ∈ L, mapAt l.store i = some a ∧ l.get hash a = .ok (some i)) ∧
    (a ∉ S → l.get hash a = .ok none) := by
  obtain ⟨m, hm, hmi⟩ := h.tab
  have hget : l.get hash a = .ok (m a) := by
    refine lookup_tab hm ?_
    intro k hk
    obtain ⟨i, hi⟩ := Option.isSome_iff_exists.1 hk
    obtain ⟨h1, h2⟩ := (hmi k i).1 hi
    obtain ⟨n, h3, h4⟩ := h.mem h1
    have : n.map = k := by have := mapAt_of h3; rw [h2] at this; exact (Option.some.inj this).symm
    rw [this] at h4
    constructor
    · rintro ⟨e, -⟩; exact hinj _ (hS _ h4) _ ha e
    · rintro rfl; simp [LibList.same]
  constructor
  · intro haS
    obtain ⟨i, hi, hia⟩ := h.idx haS
    exact ⟨i, hi, hia, by rw [hget, (hmi a i).2 ⟨hi, hia⟩]⟩
  · intro haS
    rw [hget]
    cases hma : m a with
    | none => rfl
    | some i =>
      obtain ⟨h1, h2⟩ := (hmi a i).1 hma
      obtain ⟨n, h3, h4⟩ := h.mem h1
      have := mapAt_of h3; rw [h2] at this
      rw [← Option.some.inj this] at h4
      exact absurd h4 haS

/-- Adding a library that is not on record. -/
theorem LInv.add (h : LInv hash l L S) {a : Addr} (ha : a ∉ S) :
    ∃ l' i, l.add hash a = .ok (l', i) ∧ LInv hash l' (i :: L) (a :: S) := by
  obtain ⟨m, hm, hmi⟩ := h.tab
  have hma : m a = none := by
    cases hma : m a with
    | none => rfl
    | some i =>
      obtain ⟨h1, h2⟩ := (hmi a i).1 hma
      obtain ⟨n, h3, h4⟩ := h.mem h1
      have := mapAt_of h3; rw [h2] at this
      rw [← Option.some.inj this] at h4
      exact absurd h4 ha
  have hlt : ∀ i ∈ L, i < l.store.length := by
    intro i hi
    obtain ⟨n, h1, -⟩ := h.mem hi
    exact (List.getElem?_eq_some_iff.1 h1).1
  obtain ⟨t', ht, htm⟩ := addto_tab hm a l.store.length hma
  have hfresh : l.store.length ∉ L := fun hx => Nat.lt_irrefl _ (hlt _ hx)
  -- the store after the two writes
  have key : ∀ store', (∀ j, store'[j]? = if j = l.store.length then
        some (some { map := a, next := l.head, prev := none })
      else if l.head = some j then (l.store[j]?).map (Option.map fun n => { n with prev := some l.store.length })
      else l.store[j]?) →
      LInv hash { store := store', head := some l.store.length, tab := t' } (l.store.length :: L)
        (a :: S) := by
    intro store' hs
    have hmaps : ∀ j ∈ L, mapAt store' j = mapAt l.store j := by
      intro j hj
      have hne : j ≠ l.store.length := fun e => hfresh (e ▸ hj)
      unfold mapAt
      rw [hs j, if_neg hne]
      split
      · cases l.store[j]? with
        | none => rfl
        | some o => cases o <;> rfl
      · rfl
    have hnew : mapAt store' l.store.length = some a := by
      unfold mapAt; rw [hs, if_pos rfl]; rfl
    refine ⟨⟨_, htm, ?_⟩, ?_, List.nodup_cons.2 ⟨hfresh, h.nodup⟩, ?_, List.nodup_cons.2 ⟨ha, h.nd⟩⟩
    · intro b i
      by_cases hb : b = a
      · subst hb
        rw [upd_self]
        constructor
        · intro e; cases e; exact ⟨List.mem_cons_self .., hnew⟩
        · rintro ⟨h1, h2⟩
          rcases List.mem_cons.1 h1 with rfl | h1
          · rfl
          · rw [hmaps i h1] at h2
            rw [(hmi b i).2 ⟨h1, h2⟩] at hma
            cases hma
      · rw [upd_ne _ _ hb, hmi]
        constructor
        · rintro ⟨h1, h2⟩
          exact ⟨List.mem_cons_of_mem _ h1, by rw [hmaps i h1]; exact h2⟩
        · rintro ⟨h1, h2⟩
          rcases List.mem_cons.1 h1 with rfl | h1
          · rw [hnew] at h2; exact absurd (Option.some.inj h2).symm hb
          · exact ⟨h1, by rw [hmaps i h1] at h2; exact h2⟩
    · refine ⟨rfl, toE (some { map := a, next := l.head, prev := none }), ?_, rfl, ?_⟩
      · rw [List.getElem?_map, hs, if_pos rfl]; rfl
      · have hl := h.link
        show Linked (store'.map toE) (some l.store.length) l.head L
        cases L with
        | nil =>
          cases hh : l.head with
          | none => trivial
          | some x => rw [DL, hh] at hl; exact absurd hl (by simp [Linked])
        | cons x L =>
          cases hh : l.head with
          | none => rw [DL, hh] at hl; exact absurd hl (by simp [Linked])
          | some y =>
            rw [DL, hh] at hl
            obtain ⟨rfl, e, he, hp, hrest⟩ := hl
            obtain ⟨n, hn, -⟩ := h.mem (List.mem_cons_self ..)
            rw [List.getElem?_map, hn] at he
            cases he
            have hne : y ≠ l.store.length := fun e => hfresh (e ▸ List.mem_cons_self ..)
            refine ⟨rfl, toE (some { n with prev := some l.store.length }), ?_, rfl, ?_⟩
            · rw [List.getElem?_map, hs, if_neg hne, if_pos hh, hn]; rfl
            · refine linked_congr hrest ?_
              intro j hj e he
              have hjne : j ≠ l.store.length := fun e => hfresh (e ▸ List.mem_cons_of_mem _ hj)
              have hjy : ¬ l.head = some j := by
                rw [hh]; intro e
                rw [Option.some.inj e] at h
                exact (List.nodup_cons.1 h.nodup).1 hj
              refine ⟨e, ?_, rfl, rfl⟩
              rw [List.getElem?_map, hs, if_neg hjne, if_neg hjy, ← List.getElem?_map]; exact he
    · show mapAt store' l.store.length :: L.map (mapAt store') = some a :: S.map some
      rw [hnew, ← h.maps]
      exact congrArg _ (List.map_congr_left hmaps)
  cases hh : l.head with
  | none =>
    refine ⟨_, l.store.length, ?_, key (l.store ++ [some { map := a, next := l.head, prev := none }]) ?_⟩
    · unfold LibList.add
      rw [hh]
      show (do let t ← l.tab.addto a l.store.length (hash a); _) = _
      rw [ht]; rfl
    · intro j
      rw [hh]
      rcases Nat.lt_trichotomy j l.store.length with hj | hj | hj
      · rw [List.getElem?_append_left hj, if_neg (by omega)]; simp
      · subst hj; simp
      · rw [if_neg (by omega), List.getElem?_eq_none (by simp; omega), List.getElem?_eq_none (by omega)]; simp
  | some y =>
    obtain ⟨L', rfl⟩ : ∃ L', L = y :: L' := by
      have := linked_head h.link
      rw [hh] at this
      cases L with
      | nil => cases this
      | cons x L' => cases this; exact ⟨L', rfl⟩
    obtain ⟨n, hn, -⟩ := h.mem (List.mem_cons_self ..)
    have hy : y < l.store.length := hlt y (List.mem_cons_self ..)
    refine ⟨_, l.store.length, ?_, key ((l.store ++ [some ({ map := a, next := l.head, prev := none } : LibNode)]).set y
      (some ({ n with prev := some l.store.length } : LibNode))) ?_⟩
    · unfold LibList.add
      rw [hh]
      simp only [LibList.updateIf, LibList.update, List.getElem?_append_left hy, hn, bind, Except.bind, ht]
    · intro j
      rw [List.getElem?_set, hh]
      rcases Nat.lt_trichotomy j l.store.length with hj | hj | hj
      · rw [List.getElem?_append_left hj, if_neg (show ¬ j = l.store.length by omega)]
        by_cases hyj : y = j
        · subst hyj; rw [if_pos rfl, if_pos (by simp; omega), if_pos rfl, hn]; rfl
        · rw [if_neg hyj, if_neg (by intro e; exact hyj (Option.some.inj e))]
      · subst hj; rw [if_neg (by omega), if_pos rfl]; simp
      · rw [if_neg (by omega), if_neg (by omega), List.getElem?_eq_none (by simp; omega),
          List.getElem?_eq_none (by omega)]; simp

theorem removefrom_hit {m : Addr → Option Nat} (hm : TabMap hash l.tab m) {a : Addr}
    (he : ∀ k, (m k).isSome → ((hash k = hash a ∧ LibList.same a k = true) ↔ k = a)) :
    ∃ t' b, l.tab.removefrom (hash a) (LibList.same a) = .ok (t', b) ∧ TabMap hash t' (upd m a none) := by
  obtain ⟨t', h1, h2⟩ := removefrom_tab hm he
  exact ⟨t', _, h1, h2⟩

/-- Removing a library that is on record. -/
theorem LInv.remove (h : LInv hash l L S) {A : List Addr}
    (hinj : ∀ a ∈ A, ∀ b ∈ A, hash a = hash b → a = b) (hS : ∀ a ∈ S, a ∈ A) {a : Addr} (ha : a ∈ A)
    (haS : a ∈ S) : ∃ l' L', l.remove hash a = .ok l' ∧
      LInv hash l' L' (S.filter fun b => b ≠ a) := by
  obtain ⟨i, hi, hia, hget⟩ := (h.get hinj hS ha).1 haS
  obtain ⟨X, Y, rfl⟩ := List.append_of_mem hi
  obtain ⟨n, hn, hna⟩ := mapAt_some hia
  have hnd := h.nodup
  have hiX : i ∉ X := fun hx => by
    have := (List.nodup_append.1 hnd).2.2 i hx i (List.mem_cons_self ..)
    exact this rfl
  have hiY : i ∉ Y := (List.nodup_cons.1 (List.nodup_append.1 hnd).2.1).1
  have hE : (l.store.map toE)[i]? = some (toE (some n)) := by rw [List.getElem?_map, hn]; rfl
  obtain ⟨hprev, hnext⟩ := linked_mid hE h.link
  have hprev : n.prev = X.getLast? := by simpa [toE] using hprev
  have hnext' : n.next = Y.head? := linked_head hnext
  have hp : ∀ p, n.prev = some p → p ∈ X := fun p e => List.mem_of_getLast? (hprev ▸ e)
  have hq : ∀ q, n.next = some q → q ∈ Y := fun q e => List.mem_of_head? (hnext' ▸ e)
  -- the table
  obtain ⟨m, hm, hmi⟩ := h.tab
  have hmk : ∀ k, (m k).isSome → ((hash k = hash a ∧ LibList.same a k = true) ↔ k = a) := by
    intro k hk
    obtain ⟨j, hj⟩ := Option.isSome_iff_exists.1 hk
    obtain ⟨h1, h2⟩ := (hmi k j).1 hj
    obtain ⟨n', h3, h4⟩ := h.mem h1
    have : n'.map = k := by have := mapAt_of h3; rw [h2] at this; exact (Option.some.inj this).symm
    rw [this] at h4
    constructor
    · rintro ⟨e, -⟩; exact hinj _ (hS _ h4) _ ha e
    · rintro rfl; simp [LibList.same]
  obtain ⟨t', b, ht, htm⟩ := removefrom_hit hm hmk
  -- the list after unlinking
  have key : ∀ store', store'.length = l.store.length → (∀ j, j ≠ i → store'[j]? = (l.store[j]?).map (Option.map fun x =>
        { x with prev := if n.next = some j then n.prev else x.prev,
                 next := if n.prev = some j then n.next else x.next })) → store'[i]? = some none →
      LInv hash { store := store', head := if l.head = some i then n.next else l.head, tab := t' }
        (X ++ Y) (S.filter fun b => b ≠ a) := by
    intro store' _ hs hsi
    have hmaps : ∀ j, j ≠ i → mapAt store' j = mapAt l.store j := by
      intro j hj
      unfold mapAt
      rw [hs j hj]
      cases l.store[j]? with
      | none => rfl
      | some o => cases o <;> rfl
    have hne : ∀ j ∈ X ++ Y, j ≠ i := by
      rintro j hj rfl
      rcases List.mem_append.1 hj with hj | hj
      · exact hiX hj
      · exact hiY hj
    have hmem : ∀ j, j ∈ X ++ i :: Y ↔ j = i ∨ j ∈ X ++ Y := by
      intro j; simp only [List.mem_append, List.mem_cons]; tauto
    -- the abstract list
    obtain ⟨SX, b', SY, hSe, hX, hib, hY⟩ := mem_split_map h.maps
    have hba : b' = a := by rw [hia] at hib; exact (Option.some.inj hib).symm
    subst hba
    have hSnd := h.nd
    rw [hSe] at hSnd
    have hfil : S.filter (fun b => b ≠ b') = SX ++ SY := by
      rw [hSe, List.filter_append, List.filter_cons_of_neg (by simp)]
      have h1 : ∀ c ∈ SX, c ≠ b' := by
        rintro c hc rfl
        exact (List.nodup_append.1 hSnd).2.2 c hc c (List.mem_cons_self ..) rfl
      have h2 : ∀ c ∈ SY, c ≠ b' := by
        rintro c hc rfl
        exact (List.nodup_cons.1 (List.nodup_append.1 hSnd).2.1).1 hc
      rw [List.filter_eq_self.2 (by simpa using h1), List.filter_eq_self.2 (by simpa using h2)]
    refine ⟨⟨_, htm, ?_⟩, ?_, ?_, ?_, h.nd.filter _⟩
    · intro c j
      by_cases hc : c = b'
      · subst hc
        rw [upd_self]
        constructor
        · intro e; cases e
        · rintro ⟨h1, h2⟩
          rw [hmaps j (hne j h1)] at h2
          have h3 := (hmi c j).2 ⟨(hmem j).2 (Or.inr h1), h2⟩
          have h4 := (hmi c i).2 ⟨(hmem i).2 (Or.inl rfl), hia⟩
          rw [h3] at h4
          exact absurd (Option.some.inj h4) (hne j h1)
      · rw [upd_ne _ _ hc, hmi]
        constructor
        · rintro ⟨h1, h2⟩
          rcases (hmem j).1 h1 with rfl | h1
          · rw [hia] at h2; exact absurd (Option.some.inj h2).symm hc
          · exact ⟨h1, by rw [hmaps j (hne j h1)]; exact h2⟩
        · rintro ⟨h1, h2⟩
          exact ⟨(hmem j).2 (Or.inr h1), by rw [← hmaps j (hne j h1)]; exact h2⟩
    · have := unlink_linked (slots' := store'.map toE) hE h.link hnd (by intro p hp; cases hp) (by
        intro j hj x hx
        rw [List.getElem?_map] at hx
        cases hjs : l.store[j]? with
        | none => rw [hjs] at hx; cases hx
        | some o =>
          rw [hjs] at hx
          cases hx
          have hj1 : j ∈ X ++ i :: Y := (hmem j).2 (Or.inr hj)
          obtain ⟨nj, hnj, -⟩ := h.mem hj1
          rw [hjs] at hnj
          cases hnj
          refine ⟨_, by rw [List.getElem?_map, hs j (hne j hj), hjs]; rfl, ?_, ?_⟩
          · rfl
          · rfl)
      have hhead : (if l.head = some i then n.next else l.head) = if X = [] then n.next else l.head := by
        have e0 := linked_head h.link
        cases X with
        | nil => rw [if_pos rfl, if_pos (show l.head = some i from e0)]
        | cons x X =>
          have e1 : ¬ l.head = some i := by
            rw [e0]
            intro e
            exact hiX (Option.some.inj e ▸ List.mem_cons_self ..)
          have e2 : ¬ (x :: X = []) := by simp
          rw [if_neg e1, if_neg e2]
      show Linked (store'.map toE) none (if l.head = some i then n.next else l.head) (X ++ Y)
      rw [hhead]
      exact this
    · exact List.nodup_append.2 ⟨(List.nodup_append.1 hnd).1,
        (List.nodup_cons.1 (List.nodup_append.1 hnd).2.1).2,
        fun x hx y hy => (List.nodup_append.1 hnd).2.2 x hx y (List.mem_cons_of_mem _ hy)⟩
    · rw [hfil, List.map_append, List.map_append, ← hX, ← hY]
      exact congr (congrArg _ (List.map_congr_left fun j hj => hmaps j (hne j (List.mem_append_left _ hj))))
        (List.map_congr_left fun j hj => hmaps j (hne j (List.mem_append_right _ hj)))
  -- run the code
  have hXY : ∀ x ∈ X, x ∉ Y := fun x hx hy =>
    (List.nodup_append.1 hnd).2.2 x hx x (List.mem_cons_of_mem _ hy) rfl
  have hilt : i < l.store.length := (List.getElem?_eq_some_iff.1 hn).1
  unfold LibList.remove
  rw [hget]
  have hd : l.deref i = .ok n := by simp [LibList.deref, hn]
  simp only [bind, Except.bind, hd]
  -- the two updates
  obtain ⟨l1, e1, t1, g1, k1⟩ : ∃ l1 : LibList, l.updateIf n.prev (fun x => { x with next := n.next }) = .ok l1 ∧ l1.tab = l.tab ∧ (l1.head = l.head ∧ l1.store.length = l.store.length) ∧
      ∀ j, l1.store[j]? = (l.store[j]?).map (Option.map fun x : LibNode =>
        ({ x with next := if n.prev = some j then n.next else x.next } : LibNode)) := by
    cases hpr : n.prev with
    | none =>
      refine ⟨l, rfl, rfl, ⟨rfl, rfl⟩, fun j => ?_⟩
      cases l.store[j]? with
      | none => rfl
      | some o => cases o <;> rfl
    | some p =>
      obtain ⟨x, hx, -⟩ := h.mem (List.mem_append_left _ (hp p hpr))
      refine ⟨{ l with store := l.store.set p (some ({ x with next := n.next } : LibNode)) }, ?_, rfl,
        ⟨rfl, by simp⟩, fun j => ?_⟩
      · simp only [LibList.updateIf, LibList.update, hx]
      · simp only [List.getElem?_set]
        by_cases hj : p = j
        · subst hj
          rw [if_pos rfl, if_pos (List.getElem?_eq_some_iff.1 hx).1, hx]; simp
        · rw [if_neg hj]
          have hj' : ¬ some p = some j := fun e => hj (Option.some.inj e)
          simp only [if_neg hj']
          cases l.store[j]? with
          | none => rfl
          | some o => cases o <;> rfl
  have hd1 : l1.deref i = .ok n := by
    have : ¬ n.prev = some i := fun e => hiX (hp i e)
    unfold LibList.deref
    rw [k1 i, hn]
    simp only [Option.map_some, if_neg this]
  obtain ⟨l2, e2, t2, g2, k2⟩ : ∃ l2 : LibList, l1.updateIf n.next (fun x => { x with prev := n.prev }) = .ok l2 ∧ l2.tab = l.tab ∧ (l2.head = l.head ∧ l2.store.length = l.store.length) ∧
      ∀ j, l2.store[j]? = (l1.store[j]?).map (Option.map fun x : LibNode =>
        ({ x with prev := if n.next = some j then n.prev else x.prev } : LibNode)) := by
    cases hnx : n.next with
    | none =>
      refine ⟨l1, rfl, t1, g1, fun j => ?_⟩
      cases l1.store[j]? with
      | none => rfl
      | some o => cases o <;> rfl
    | some q =>
      obtain ⟨x0, hx0, -⟩ := h.mem (List.mem_append_right _ (List.mem_cons_of_mem _ (hq q hnx)))
      obtain ⟨x, hx⟩ : ∃ x, l1.store[q]? = some (some x) := by rw [k1 q, hx0]; exact ⟨_, rfl⟩
      refine ⟨{ l1 with store := l1.store.set q (some ({ x with prev := n.prev } : LibNode)) }, ?_, t1,
        ⟨g1.1, by simp [g1.2]⟩, fun j => ?_⟩
      · simp only [LibList.updateIf, LibList.update, hx]
      · simp only [List.getElem?_set]
        by_cases hj : q = j
        · subst hj
          rw [if_pos rfl, if_pos (List.getElem?_eq_some_iff.1 hx).1, hx]; simp
        · rw [if_neg hj]
          have hj' : ¬ some q = some j := fun e => hj (Option.some.inj e)
          simp only [if_neg hj']
          cases l1.store[j]? with
          | none => rfl
          | some o => cases o <;> rfl
  have hd2 : l2.deref i = .ok n := by
    have h1 : ¬ n.prev = some i := fun e => hiX (hp i e)
    have h2 : ¬ n.next = some i := fun e => hiY (hq i e)
    unfold LibList.deref
    rw [k2 i, k1 i, hn]
    simp only [Option.map_some, if_neg h1, if_neg h2]
  have hkey := key (l2.store.set i none) (by simp [g2.2]) (by
      intro j hj
      rw [List.getElem?_set, if_neg (fun e => hj e.symm), k2 j, k1 j]
      cases l.store[j]? with
      | none => rfl
      | some o => cases o <;> rfl) (by rw [List.getElem?_set, if_pos rfl, if_pos (by omega)])
  simp only [e1, hd1, e2, hd2]
  by_cases hh : l.head = some i
  · rw [if_pos hh] at hkey
    simp only [if_pos (g2.1.trans hh), t2, ht]
    exact ⟨_, _, rfl, hkey⟩
  · rw [if_neg hh] at hkey
    have hh2 : ¬ l2.head = some i := by rw [g2.1]; exact hh
    simp only [if_neg hh2, t2, ht]
    rw [← g2.1] at hkey
    exact ⟨_, _, rfl, hkey⟩

/-- A record list read through `next`. -/
theorem forward_eq : ∀ {L : List Nat} {S : List Addr} {prev head : Option Nat} (fuel : Nat),
    Linked (l.store.map toE) prev head L → L.map (mapAt l.store) = S.map some → L.length ≤ fuel →
    l.forward fuel head = .ok S := by
  intro L
  induction L with
  | nil =>
    intro S prev head fuel hl hS _
    cases head with
    | none =>
      cases S with
      | nil => cases fuel <;> rfl
      | cons a S => cases hS
    | some x => exact absurd hl (by simp [Linked])
  | cons x L ih =>
    intro S prev head fuel hl hS hf
    cases head with
    | none => exact absurd hl (by simp [Linked])
    | some y =>
      obtain ⟨rfl, e, he, -, hrest⟩ := hl
      cases S with
      | nil => cases hS
      | cons a S =>
        simp only [List.map_cons, List.cons.injEq] at hS
        obtain ⟨n, hn, hna⟩ := mapAt_some hS.1
        rw [List.getElem?_map, hn] at he
        cases he
        cases fuel with
        | zero => simp at hf
        | succ fuel =>
          have := ih fuel hrest hS.2 (by simpa using hf)
          simp only [toE, Option.bind_some] at this
          simp only [LibList.forward, LibList.deref, hn, bind, Except.bind, this, hna]

/-- The `prev` links of a record list. -/
theorem linked_snoc {E : List (Entry Unit Unit)} : ∀ {X : List Nat} {x : Nat} {prev head : Option Nat},
    Linked E prev head (X ++ [x]) → ∃ e, E[x]? = some e ∧ e.prev = (X.getLast?).or prev := by
  intro X x prev head h
  have : ∃ e, E[x]? = some e := linked_mem h x (by simp)
  obtain ⟨e, he⟩ := this
  exact ⟨e, he, (linked_mid he h).1⟩

theorem linked_front {E : List (Entry Unit Unit)} {x : Nat} : ∀ {X : List Nat} {prev head : Option Nat},
    Linked E prev head (X ++ [x]) → ∀ y ∈ X, ∃ e, E[y]? = some e := by
  intro X prev head h y hy
  exact linked_mem h y (List.mem_append_left _ hy)

/-- A record list read through `prev`, from its last record. -/
theorem backward_eq : ∀ (k : Nat) {X Y : List Nat} {S : List Addr} {head : Option Nat} (fuel : Nat),
    X.length = k → Linked (l.store.map toE) none head (X ++ Y) →
    X.map (mapAt l.store) = S.map some → X.length ≤ fuel →
    l.backward fuel X.getLast? = .ok S.reverse := by
  intro k
  induction k with
  | zero =>
    intro X Y S head fuel hk _ hS _
    obtain rfl := List.length_eq_zero_iff.1 hk
    cases S with
    | nil => cases fuel <;> rfl
    | cons a S => cases hS
  | succ k ih =>
    intro X Y S head fuel hk hl hS hf
    obtain ⟨Z, x, rfl⟩ : ∃ Z x, X = Z ++ [x] := by
      rcases List.eq_nil_or_concat X with rfl | ⟨Z, x, rfl⟩
      · cases hk
      · exact ⟨Z, x, by simp⟩
    obtain ⟨T, a, rfl⟩ : ∃ T a, S = T ++ [a] := by
      rcases List.eq_nil_or_concat S with rfl | ⟨T, a, rfl⟩
      · simp at hS
      · exact ⟨T, a, by simp⟩
    rw [List.map_append, List.map_append] at hS
    obtain ⟨hS1, hS2⟩ := List.append_inj' hS rfl
    simp only [List.map_cons, List.map_nil, List.cons.injEq, and_true] at hS2
    obtain ⟨n, hn, hna⟩ := mapAt_some hS2
    have hE : (l.store.map toE)[x]? = some (toE (some n)) := by rw [List.getElem?_map, hn]; rfl
    rw [List.append_assoc] at hl
    have hp := (linked_mid hE hl).1
    cases fuel with
    | zero => simp at hf
    | succ fuel =>
      have := ih (X := Z) (Y := x :: Y) (S := T) fuel (by simpa using hk) hl hS1 (by simpa using hf)
      have hp' : n.prev = Z.getLast? := by simpa [toE] using hp
      rw [List.getLast?_concat, List.reverse_append]
      simp only [LibList.backward, LibList.deref, hn, bind, Except.bind, hp', this, hna]
      rfl

theorem length_le_of_nodup_lt {L : List Nat} {n : Nat} (h : L.Nodup) (hlt : ∀ i ∈ L, i < n) :
    L.length ≤ n := by
  have := (List.nodup_range (n := n)).subperm (l₂ := List.range n) (l₁ := List.range n)
  have h2 : L.Subperm (List.range n) := h.subperm (fun i hi => List.mem_range.2 (hlt i hi))
  simpa using h2.length_le

theorem LInv.listOf (h : LInv hash l L S) : ListOf l S := by
  have hlt : ∀ i ∈ L, i < l.store.length := by
    intro i hi
    obtain ⟨n, h1, -⟩ := h.mem hi
    exact (List.getElem?_eq_some_iff.1 h1).1
  have hlen := length_le_of_nodup_lt h.nodup hlt
  refine ⟨forward_eq _ h.link h.maps hlen, L.getLast?, ?_, ?_⟩
  · exact backward_eq L.length (Y := []) _ rfl (by rw [List.append_nil]; exact h.link) h.maps hlen
  · have hl : L.length = S.length := by simpa using congrArg List.length h.maps
    rw [List.getLast?_eq_none_iff]
    constructor
    · rintro rfl; exact List.length_eq_zero_iff.1 hl.symm
    · rintro rfl; exact List.length_eq_zero_iff.1 hl

theorem libStep_inv (h : LInv hash l L S) {A : List Addr}
    (hinj : ∀ a ∈ A, ∀ b ∈ A, hash a = hash b → a = b) (hS : ∀ a ∈ S, a ∈ A) {op : LibOp}
    (ha : addrOf op ∈ A) : ∃ l' L', libStep hash l op = .ok l' ∧ LInv hash l' L' (libsStep S op) := by
  cases op with
  | ensure a =>
    have hg := h.get hinj hS ha
    by_cases haS : a ∈ S
    · obtain ⟨i, -, -, hget⟩ := hg.1 haS
      refine ⟨l, L, ?_, by rw [libsStep, if_pos haS]; exact h⟩
      simp only [addrOf] at hget
      simp only [libStep, LibList.ensure, bind, Except.bind, hget]
    · have hget := hg.2 haS
      obtain ⟨l', i, h1, h2⟩ := h.add haS
      refine ⟨l', i :: L, ?_, by rw [libsStep, if_neg haS]; exact h2⟩
      simp only [addrOf] at hget
      simp only [libStep, LibList.ensure, bind, Except.bind, hget, h1]
  | remove a =>
    by_cases haS : a ∈ S
    · exact h.remove hinj hS ha haS
    · have hget := (h.get hinj hS ha).2 haS
      refine ⟨l, L, ?_, ?_⟩
      · simp only [addrOf] at hget
        simp only [libStep, LibList.remove, bind, Except.bind, hget]
      · have : libsStep S (.remove a) = S :=
          List.filter_eq_self.2 (fun b hb => by
            have : b ≠ a := fun e => haS (e ▸ hb)
            simpa using this)
        rw [this]; exact h

theorem libsStep_sub {A : List Addr} (hS : ∀ a ∈ S, a ∈ A) {op : LibOp} (ha : addrOf op ∈ A) :
    ∀ a ∈ libsStep S op, a ∈ A := by
  cases op with
  | ensure b =>
    intro a h
    by_cases hb : b ∈ S
    · rw [libsStep, if_pos hb] at h; exact hS a h
    · rw [libsStep, if_neg hb] at h
      rcases List.mem_cons.1 h with rfl | h
      · exact ha
      · exact hS a h
  | remove b =>
    intro a h
    have h' : a ∈ S.filter (fun c => c ≠ b) := h
    exact hS a (List.mem_filter.1 h').1

theorem libRun_inv {A : List Addr} (hinj : ∀ a ∈ A, ∀ b ∈ A, hash a = hash b → a = b) :
    ∀ (ops : List LibOp) {l : LibList} {L : List Nat} {S : List Addr}, LInv hash l L S →
      (∀ a ∈ S, a ∈ A) → (∀ op ∈ ops, addrOf op ∈ A) →
      ∃ l' L', libRun hash ops l = .ok l' ∧ LInv hash l' L' (ops.foldl libsStep S) ∧
        ∀ a ∈ ops.foldl libsStep S, a ∈ A := by
  intro ops
  induction ops with
  | nil => intro l L S h hS _; exact ⟨l, L, rfl, h, hS⟩
  | cons op ops ih =>
    intro l L S h hS ho
    have ha := ho op (List.mem_cons_self ..)
    obtain ⟨l1, L1, h1, h2⟩ := libStep_inv h hinj hS ha
    obtain ⟨l2, L2, h3, h4⟩ := ih h2 (libsStep_sub hS ha) (fun o h => ho o (List.mem_cons_of_mem _ h))
    refine ⟨l2, L2, ?_, h4⟩
    simp only [libRun, bind, Except.bind, h1, h3]

end Gotcha.Utils
