import Verif.Model.Hash
import Mathlib.Data.List.Nodup
import Mathlib.Data.List.Induction
import Mathlib.Data.Nat.ModEq
import Mathlib.Tactic.Push
import Mathlib.Data.List.Perm.Subperm
import Mathlib.Data.List.Perm.Lattice
/-
Representation invariant of the hash table and its preservation by every operation.
-/
namespace Gotcha
namespace HTable
variable {K D : Type}

/-- What a stored entry means: hash value, key and data. -/
abbrev Item (K D : Type) := BitVec 32 × K × D

/-- The item stored in an entry (if in use). -/
def item? (e : Entry K D) : Option (Item K D) :=
  if e.status = .inuse then
    match e.key, e.data with
    | some k, some d => some (e.hash, k, d)
    | _, _ => none
  else none

def itemAt (slots : List (Entry K D)) (i : Nat) : Option (Item K D) :=
  slots[i]?.bind item?

/-- `Linked slots prev head L`: following `next` from `head` visits exactly the indices `L`, and
the `prev` links are the reverse. -/
def Linked (slots : List (Entry K D)) : Option Nat → Option Nat → List Nat → Prop
  | _, none, [] => True
  | prev, some i, j :: L =>
      i = j ∧ ∃ e, slots[i]? = some e ∧ e.prev = prev ∧ Linked slots (some i) e.next L
  | _, _, _ => False

/-- `Probed slots i hv`: index `i` is reachable by probing for hash value `hv` without meeting an
empty slot before. -/
def Probed (slots : List (Entry K D)) (i : Nat) (hv : BitVec 32) : Prop :=
  ∃ d, d < slots.length ∧ i = (home hv slots.length + d) % slots.length ∧
    ∀ d', d' < d → ∃ e', slots[(home hv slots.length + d') % slots.length]? = some e' ∧
      e'.status ≠ .empty

/-- Representation invariant: the table stores `items` (most recently added first) at slots `L`. -/
structure Repr (t : HTable K D) (L : List Nat) (items : List (Item K D)) : Prop where
  pos : 0 < t.slots.length
  linked : Linked t.slots none t.head L
  nodup : L.Nodup
  items : L.map (itemAt t.slots) = items.map some
  cover : ∀ i e, t.slots[i]? = some e → e.status = .inuse → i ∈ L
  count : t.count = L.length
  probe : ∀ i e, t.slots[i]? = some e → e.status = .inuse → Probed t.slots i e.hash

theorem home_lt (hv : BitVec 32) {n : Nat} (h : 0 < n) : home hv n < n := Nat.mod_lt _ h

theorem step_eq {n s k : Nat} (hn : 0 < n) (_hk : k < n) :
    (if (s + k) % n + 1 = n then 0 else (s + k) % n + 1) = (s + (k + 1)) % n := by
  have h := Nat.mod_lt (s + k) hn
  have h2 : (s + (k + 1)) % n = ((s + k) % n + 1) % n := by
    rw [← Nat.add_assoc]; simp [Nat.add_mod]
  rw [h2]
  split
  · rename_i he; rw [he]; simp
  · rw [Nat.mod_eq_of_lt (a := (s + k) % n + 1)]; omega

theorem step_start {n s k : Nat} (hs : s < n) (hk : k < n) :
    (s + (k + 1)) % n = s ↔ k + 1 = n := by
  constructor
  · intro h
    by_contra hne
    have hlt : k + 1 < n := by omega
    by_cases hc : s + (k+1) < n
    · rw [Nat.mod_eq_of_lt hc] at h; omega
    · rw [Nat.mod_eq_sub_mod (by omega), Nat.mod_eq_of_lt (by omega)] at h
      omega
  · intro h; rw [h]; simp [Nat.mod_eq_of_lt hs]

/-- Distinct offsets below `n` give distinct indices. -/
theorem off_inj {n s a b : Nat} (ha : a < n) (hb : b < n) (h : (s + a) % n = (s + b) % n) : a = b := by
  have h' : Nat.ModEq n (s + a) (s + b) := h
  have := Nat.ModEq.add_left_cancel' s h'
  unfold Nat.ModEq at this
  rwa [Nat.mod_eq_of_lt ha, Nat.mod_eq_of_lt hb] at this

/-- Every index is at some offset. -/
theorem exists_off {n s i : Nat} (hs : s < n) (hi : i < n) : ∃ d, d < n ∧ i = (s + d) % n := by
  by_cases h : s ≤ i
  · exact ⟨i - s, by omega, by rw [show s + (i - s) = i by omega, Nat.mod_eq_of_lt hi]⟩
  · refine ⟨n - s + i, by omega, ?_⟩
    rw [show s + (n - s + i) = i + n by omega]; simp [Nat.mod_eq_of_lt hi]

def Free (e : Entry K D) : Prop := e.status = .empty ∨ e.status = .tombstone
instance (e : Entry K D) : Decidable (Free e) := by unfold Free; infer_instance

theorem not_free {e : Entry K D} : ¬ Free e ↔ e.status = .inuse := by
  unfold Free; cases e.status <;> simp

theorem insertProbe_spec (slots : List (Entry K D)) (s : Nat) (hs : s < slots.length) :
    ∀ (fuel k d : Nat), fuel = slots.length - k → k ≤ d → d < slots.length →
      (∃ e, slots[(s + d) % slots.length]? = some e ∧ Free e) →
      ∃ d0, k ≤ d0 ∧ d0 ≤ d ∧
        insertProbe slots s fuel ((s + k) % slots.length) = ((s + d0) % slots.length, true) ∧
        (∃ e, slots[(s + d0) % slots.length]? = some e ∧ Free e) ∧
        (∀ d', k ≤ d' → d' < d0 → ∃ e, slots[(s + d') % slots.length]? = some e ∧
            e.status = .inuse) := by
  intro fuel
  induction fuel with
  | zero => intro k d hf hkd hd; omega
  | succ fuel ih =>
    intro k d hf hkd hd hfree
    have hn : 0 < slots.length := by omega
    have hk : k < slots.length := by omega
    have hi : (s + k) % slots.length < slots.length := Nat.mod_lt _ hn
    obtain ⟨e, he⟩ : ∃ e, slots[(s + k) % slots.length]? = some e :=
      ⟨_, List.getElem?_eq_getElem hi⟩
    by_cases hfe : Free e
    · refine ⟨k, le_refl _, hkd, ?_, ⟨e, he, hfe⟩, fun d' h1 h2 => by omega⟩
      unfold insertProbe
      simp only [he]
      exact if_pos hfe
    · have hlt : k < d := by
        rcases Nat.lt_or_eq_of_le hkd with h | h
        · exact h
        · subst h; obtain ⟨e', he', hf'⟩ := hfree
          rw [he] at he'; cases he'; exact absurd hf' hfe
      obtain ⟨d0, h1, h2, h3, h4, h5⟩ := ih (k+1) d (by omega) (by omega) hd hfree
      refine ⟨d0, by omega, h2, ?_, h4, ?_⟩
      · unfold insertProbe
        simp only [he]
        rw [if_neg (show ¬ (e.status = .empty ∨ e.status = .tombstone) from hfe), step_eq hn hk, if_neg]
        · exact h3
        · rw [step_start hs hk]; omega
      · intro d' hd1 hd2
        rcases Nat.lt_or_eq_of_le hd1 with h | h
        · exact h5 d' (by omega) hd2
        · subst h; exact ⟨e, he, not_free.1 hfe⟩

theorem linked_mem {slots : List (Entry K D)} : ∀ {L : List Nat} {prev head : Option Nat},
    Linked slots prev head L → ∀ i ∈ L, ∃ e, slots[i]? = some e := by
  intro L
  induction L with
  | nil => simp
  | cons j L ih =>
    intro prev head h i hi
    cases head with
    | none => exact absurd h (by simp [Linked])
    | some a =>
      obtain ⟨rfl, e, he, _, hl⟩ := h
      rcases List.mem_cons.1 hi with rfl | hi
      · exact ⟨e, he⟩
      · exact ih hl i hi

/-- `Linked` only depends on the links of the entries in `L`. -/
theorem linked_congr {s1 s2 : List (Entry K D)} : ∀ {L : List Nat} {prev head : Option Nat},
    Linked s1 prev head L →
    (∀ i ∈ L, ∀ e, s1[i]? = some e → ∃ e', s2[i]? = some e' ∧ e'.prev = e.prev ∧ e'.next = e.next) →
    Linked s2 prev head L := by
  intro L
  induction L with
  | nil => intro prev head h _; cases head <;> simp_all [Linked]
  | cons j L ih =>
    intro prev head h hc
    cases head with
    | none => exact absurd h (by simp [Linked])
    | some a =>
      obtain ⟨rfl, e, he, hp, hl⟩ := h
      obtain ⟨e', he', hp', hn'⟩ := hc a (by simp) e he
      refine ⟨rfl, e', he', by rw [hp', hp], ?_⟩
      rw [hn']
      exact ih hl (fun i hi e h => hc i (List.mem_cons_of_mem _ hi) e h)

theorem itemAt_inuse {slots : List (Entry K D)} {i : Nat} {it : Item K D}
    (h : itemAt slots i = some it) :
    ∃ e, slots[i]? = some e ∧ e.status = .inuse ∧ e.hash = it.1 ∧ e.key = some it.2.1 ∧
      e.data = some it.2.2 := by
  unfold itemAt at h
  cases hs : slots[i]? with
  | none => simp [hs] at h
  | some e =>
    simp only [hs, Option.bind_some, item?] at h
    split at h
    · rename_i hi
      split at h
      · rename_i k d hk hd
        cases h; exact ⟨e, rfl, hi, rfl, hk, hd⟩
      · exact absurd h (by simp)
    · exact absurd h (by simp)

theorem itemAt_of {slots : List (Entry K D)} {i : Nat} {e : Entry K D} {k : K} {d : D}
    (h : slots[i]? = some e) (hs : e.status = .inuse) (hk : e.key = some k)
    (hd : e.data = some d) : itemAt slots i = some (e.hash, k, d) := by
  simp [itemAt, item?, h, hs, hk, hd]

theorem Repr.mem_item {t : HTable K D} {L items} (r : Repr t L items) {i : Nat} (hi : i ∈ L) :
    ∃ it ∈ items, itemAt t.slots i = some it := by
  have : itemAt t.slots i ∈ L.map (itemAt t.slots) := List.mem_map_of_mem hi
  rw [r.items] at this
  obtain ⟨it, h1, h2⟩ := List.mem_map.1 this
  exact ⟨it, h1, h2.symm⟩

theorem Repr.item_mem {t : HTable K D} {L items} (r : Repr t L items) {it : Item K D}
    (hi : it ∈ items) : ∃ i ∈ L, itemAt t.slots i = some it := by
  have : some it ∈ items.map some := List.mem_map_of_mem hi
  rw [← r.items] at this
  obtain ⟨i, h1, h2⟩ := List.mem_map.1 this
  exact ⟨i, h1, h2⟩

theorem Repr.mem_iff {t : HTable K D} {L items} (r : Repr t L items) {i : Nat} :
    i ∈ L ↔ ∃ e, t.slots[i]? = some e ∧ e.status = .inuse := by
  constructor
  · intro h
    obtain ⟨it, _, h⟩ := r.mem_item h
    obtain ⟨e, h1, h2, _⟩ := itemAt_inuse h
    exact ⟨e, h1, h2⟩
  · rintro ⟨e, h1, h2⟩; exact r.cover i e h1 h2

theorem Repr.length {t : HTable K D} {L items} (r : Repr t L items) : L.length = items.length := by
  have := congrArg List.length r.items
  simpa using this

theorem Repr.count_items {t : HTable K D} {L items} (r : Repr t L items) :
    t.count = items.length := by rw [r.count, r.length]

/-- Fewer entries than slots: a free slot exists. -/
theorem Repr.exists_free {t : HTable K D} {L items} (r : Repr t L items)
    (h : items.length < t.slots.length) :
    ∃ (i : Nat) (e : Entry K D), t.slots[i]? = some e ∧ Free e := by
  by_contra hc
  push Not at hc
  have hsub : List.range t.slots.length ⊆ L := by
    intro i hi
    have hi' := List.mem_range.1 hi
    have he := List.getElem?_eq_getElem hi'
    exact r.cover i _ he (not_free.1 (hc i _ he))
  have := (List.nodup_range.subperm hsub).length_le
  rw [List.length_range, r.length] at this
  omega

theorem blank_repr {n : Nat} (h : 0 < n) : Repr (blank n : HTable K D) [] [] where
  pos := by simpa [blank] using h
  linked := by simp [blank, Linked]
  nodup := List.nodup_nil
  items := rfl
  cover := by
    intro i e he hs
    simp only [blank, List.getElem?_replicate] at he
    split at he
    · cases he; cases hs
    · cases he
  count := rfl
  probe := by
    intro i e he hs
    simp only [blank, List.getElem?_replicate] at he
    split at he
    · cases he; cases hs
    · cases he

theorem getElem?_modify' {α} (l : List α) (i j : Nat) (f : α → α) :
    (l.modify i f)[j]? = if i = j then l[j]?.map f else l[j]? := by
  rw [List.getElem?_modify]
  split
  · cases l[j]? <;> rfl
  · cases l[j]? <;> rfl

theorem linkFront_get (slots : List (Entry K D)) (head : Option Nat) (i j : Nat)
    (hne : head ≠ some i) :
    (linkFront slots head i)[j]? =
      if j = i then slots[j]?.map (fun e => { e with next := head, prev := none })
      else if head = some j then slots[j]?.map (fun e => { e with prev := some i })
      else slots[j]? := by
  unfold linkFront
  cases head with
  | none =>
    simp only [getElem?_modify']
    by_cases h : j = i
    · subst h; simp
    · simp [h, Ne.symm h]
  | some a =>
    simp only [getElem?_modify']
    have hai : a ≠ i := fun h => hne (by rw [h])
    by_cases h : j = i
    · subst h; simp [hai]
    · by_cases h2 : a = j
      · subst h2; simp [h, Ne.symm h]
      · simp [h, Ne.symm h, h2]

theorem linkFront_length (slots : List (Entry K D)) (head : Option Nat) (i : Nat) :
    (linkFront slots head i).length = slots.length := by
  unfold linkFront; cases head <;> simp

theorem item?_links (e : Entry K D) (n p : Option Nat) :
    item? { e with next := n, prev := p } = item? e := rfl

theorem insert_repr {t : HTable K D} {L items} (r : Repr t L items) (k : K) (d : D)
    (hv : BitVec 32) (hfull : items.length < t.slots.length) :
    ∃ t' i, insert t k d hv = .ok t' ∧ i ∉ L ∧ Repr t' (i :: L) ((hv, k, d) :: items) ∧
      t'.slots.length = t.slots.length := by
  obtain ⟨i0, e0, he0, hf0⟩ := r.exists_free hfull
  have hn := r.pos
  have hs := home_lt hv hn
  have hi0 : i0 < t.slots.length := (List.getElem?_eq_some_iff.1 he0).1
  obtain ⟨d0, hd0, rfl⟩ := exists_off hs hi0
  obtain ⟨p, -, hp2, hp3, ⟨ep, hep, hfp⟩, hp5⟩ :=
    insertProbe_spec t.slots (home hv t.slots.length) hs _ 0 d0 rfl (Nat.zero_le _) hd0 ⟨e0, he0, hf0⟩
  simp only [Nat.add_zero, Nat.sub_zero, Nat.mod_eq_of_lt hs] at hp3
  generalize hpos : (home hv t.slots.length + p) % t.slots.length = pos at hp3 hep
  have hposlt : pos < t.slots.length := by rw [← hpos]; exact Nat.mod_lt _ hn
  have hnotin : pos ∉ L := by
    intro hmem
    obtain ⟨e, he, hse⟩ := r.mem_iff.1 hmem
    rw [hep] at he; cases he
    exact (not_free.2 hse) hfp
  have hhead : t.head ≠ some pos := by
    intro h
    have hl := r.linked
    rw [h] at hl
    cases hL : L with
    | nil => rw [hL] at hl; exact hl
    | cons a L' =>
      rw [hL] at hl
      obtain ⟨rfl, _⟩ := hl
      exact hnotin (by rw [hL]; simp)
  have hget : ∀ j, (linkFront (t.slots.modify pos (fun e =>
          { e with key := some k, data := some d, hash := hv, status := .inuse })) t.head pos)[j]? =
      if j = pos then some { key := some k, data := some d, hash := hv, status := .inuse,
                             next := t.head, prev := none }
      else if t.head = some j then t.slots[j]?.map (fun e => { e with prev := some pos })
      else t.slots[j]? := by
    intro j
    rw [linkFront_get _ _ _ _ hhead, getElem?_modify']
    by_cases h : j = pos
    · subst h; simp [hep]
    · simp [h, Ne.symm h]
  refine ⟨{ slots := linkFront (t.slots.modify pos (fun e =>
          { e with key := some k, data := some d, hash := hv, status := .inuse })) t.head pos,
            count := t.count + 1, head := some pos }, pos, ?_, hnotin, ?_, ?_⟩
  · unfold insert
    rw [if_neg (by simp only [size]; omega)]
    simp only [size, hp3]
    rfl
  · constructor
    · simp [linkFront_length]; exact hn
    · -- linked
      refine ⟨rfl, _, by rw [hget, if_pos rfl], rfl, ?_⟩
      simp only
      have hl := r.linked
      cases hL : L with
      | nil =>
        rw [hL] at hl
        cases hh : t.head with
        | none => simp [Linked]
        | some a => rw [hh] at hl; exact hl
      | cons a L' =>
        rw [hL] at hl
        cases hh : t.head with
        | none => rw [hh] at hl; exact hl
        | some b =>
          rw [hh] at hl
          obtain ⟨rfl, e, he, hpe, hl⟩ := hl
          have hbpos : b ≠ pos := fun h => hnotin (by rw [hL, h]; simp)
          refine ⟨rfl, { e with prev := some pos }, ?_, rfl, ?_⟩
          · rw [← hh]; rw [hget, if_neg hbpos, if_pos hh, he]; rfl
          · refine linked_congr hl ?_
            intro i hi e' he'
            have hi1 : i ≠ pos := fun h => hnotin (by rw [hL, ← h]; simp [hi])
            have hi2 : t.head ≠ some i := by
              intro h
              rw [hh] at h; cases h
              have := r.nodup; rw [hL] at this
              exact (List.nodup_cons.1 this).1 hi
            refine ⟨e', ?_, rfl, rfl⟩
            rw [← hh, hget, if_neg hi1, if_neg hi2, he']
    · exact List.nodup_cons.2 ⟨hnotin, r.nodup⟩
    · -- items
      simp only [List.map_cons]
      congr 1
      · simp [itemAt, hget, item?]
      · rw [← r.items]
        apply List.map_congr_left
        intro i hi
        have hi1 : i ≠ pos := fun h => hnotin (h ▸ hi)
        unfold itemAt
        rw [hget, if_neg hi1]
        split
        · cases t.slots[i]? <;> simp [item?]
        · rfl
    · intro i e he hse
      rw [hget] at he
      by_cases h : i = pos
      · subst h; simp
      · rw [if_neg h] at he
        refine List.mem_cons_of_mem _ ?_
        split at he
        · cases hs' : t.slots[i]? with
          | none => simp [hs'] at he
          | some e1 => simp [hs'] at he; subst he; exact r.cover i e1 hs' hse
        · exact r.cover i e he hse
    · simp [r.count]
    · -- probe
      have hstat : ∀ (j : Nat) (e : Entry K D), t.slots[j]? = some e → e.status ≠ .empty →
          ∃ e', (linkFront (t.slots.modify pos (fun e =>
          { e with key := some k, data := some d, hash := hv, status := .inuse })) t.head pos)[j]?
            = some e' ∧ e'.status ≠ .empty := by
        intro j e he hne
        rw [hget]
        by_cases h : j = pos
        · rw [if_pos h]; exact ⟨_, rfl, by simp⟩
        · rw [if_neg h]
          split
          · rw [he]; exact ⟨_, rfl, hne⟩
          · exact ⟨e, he, hne⟩
      intro i e he hse
      unfold Probed
      simp only [linkFront_length, List.length_modify]
      rw [hget] at he
      by_cases h : i = pos
      · rw [if_pos h] at he; cases he
        refine ⟨p, by omega, by rw [hpos, h], ?_⟩
        intro d' hd'
        obtain ⟨e', h1, h2⟩ := hp5 d' (Nat.zero_le _) hd'
        exact hstat _ e' h1 (by rw [h2]; simp)
      · rw [if_neg h] at he
        have hex : ∃ e1, t.slots[i]? = some e1 ∧ e1.status = .inuse ∧ e1.hash = e.hash := by
          split at he
          · cases hs' : t.slots[i]? with
            | none => simp [hs'] at he
            | some e1 => simp [hs'] at he; subst he; exact ⟨e1, rfl, hse, rfl⟩
          · exact ⟨e, he, hse, rfl⟩
        obtain ⟨e1, he1, hs1, hh1⟩ := hex
        obtain ⟨dd, hd1, hd2, hd3⟩ := r.probe i e1 he1 hs1
        rw [hh1] at hd2 hd3
        refine ⟨dd, hd1, hd2, ?_⟩
        intro d' hd'
        obtain ⟨e', h1, h2⟩ := hd3 d' hd'
        exact hstat _ e' h1 h2
  · simp [linkFront_length]

theorem lookupProbe_spec (slots : List (Entry K D)) (hv : BitVec 32) (eq : K → Bool) (s : Nat)
    (hs : s < slots.length) :
    ∀ (fuel k : Nat), fuel = slots.length - k → k < slots.length →
      (∃ d e, k ≤ d ∧ d < slots.length ∧ slots[(s + d) % slots.length]? = some e ∧
          e.status = .inuse ∧ e.hash = hv ∧ e.key.any eq = true ∧
          lookupProbe slots hv eq s fuel ((s + k) % slots.length) =
            .ok (some ((s + d) % slots.length))) ∨
      (lookupProbe slots hv eq s fuel ((s + k) % slots.length) = .ok none ∧
        ∀ d e, k ≤ d → d < slots.length →
          (∀ d', k ≤ d' → d' < d → ∃ e', slots[(s + d') % slots.length]? = some e' ∧
              e'.status ≠ .empty) →
          slots[(s + d) % slots.length]? = some e →
          ¬ (e.status = .inuse ∧ e.hash = hv ∧ e.key.any eq = true)) := by
  intro fuel
  induction fuel with
  | zero => intro k hf hk; omega
  | succ fuel ih =>
    intro k hf hk
    have hn : 0 < slots.length := by omega
    have hi : (s + k) % slots.length < slots.length := Nat.mod_lt _ hn
    obtain ⟨e, he⟩ : ∃ e, slots[(s + k) % slots.length]? = some e :=
      ⟨_, List.getElem?_eq_getElem hi⟩
    unfold lookupProbe
    simp only [he]
    by_cases hm : e.status = .inuse ∧ e.hash = hv ∧ e.key.any eq = true
    · left
      exact ⟨k, e, Nat.le_refl _, hk, he, hm.1, hm.2.1, hm.2.2, by rw [if_pos hm]⟩
    · rw [if_neg hm]
      by_cases hem : e.status = .empty
      · right
        rw [if_pos hem]
        refine ⟨rfl, ?_⟩
        intro d e' hd1 hd2 hpre he'
        rcases Nat.lt_or_eq_of_le hd1 with h | h
        · obtain ⟨e2, he2, hne⟩ := hpre k (Nat.le_refl _) h
          rw [he] at he2; cases he2; exact absurd hem hne
        · subst h; rw [he] at he'; cases he'; exact hm
      · rw [if_neg hem, step_eq hn hk]
        by_cases hst : k + 1 = slots.length
        · rw [if_pos ((step_start hs hk).2 hst)]
          right
          refine ⟨rfl, ?_⟩
          intro d e' hd1 hd2 hpre he'
          have : d = k := by omega
          subst this; rw [he] at he'; cases he'; exact hm
        · rw [if_neg (fun h => hst ((step_start hs hk).1 h))]
          rcases ih (k+1) (by omega) (by omega) with ⟨d, e', h1, h2, h3⟩ | ⟨h1, h2⟩
          · left; exact ⟨d, e', by omega, h2, h3⟩
          · right
            refine ⟨h1, ?_⟩
            intro d e' hd1 hd2 hpre he'
            rcases Nat.lt_or_eq_of_le hd1 with h | h
            · exact h2 d e' (by omega) hd2 (fun d' ha hb => hpre d' (by omega) hb) he'
            · subst h; rw [he] at he'; cases he'; exact hm

/-- An item matches a lookup for hash value `hv` and key predicate `eq`. -/
def Matches (hv : BitVec 32) (eq : K → Bool) (it : Item K D) : Prop :=
  it.1 = hv ∧ eq it.2.1 = true

theorem lookupEntry_repr {t : HTable K D} {L items} (r : Repr t L items) (hv : BitVec 32)
    (eq : K → Bool) :
    (∃ i it, lookupEntry t hv eq = .ok (some i) ∧ i ∈ L ∧ itemAt t.slots i = some it ∧
        it ∈ items ∧ Matches hv eq it) ∨
    (lookupEntry t hv eq = .ok none ∧ ∀ it ∈ items, ¬ Matches hv eq it) := by
  have hn := r.pos
  have hs := home_lt hv hn
  have h0 : (home hv t.slots.length + 0) % t.slots.length = home hv t.slots.length := by
    simp [Nat.mod_eq_of_lt hs]
  have hl : lookupEntry t hv eq = lookupProbe t.slots hv eq (home hv t.slots.length)
      t.slots.length ((home hv t.slots.length + 0) % t.slots.length) := by
    unfold lookupEntry
    rw [if_neg (by simp only [size]; omega), h0]
  rcases lookupProbe_spec t.slots hv eq _ hs t.slots.length 0 (by omega) hn with
    ⟨d, e, _, _, he, h1, h2, h3, h4⟩ | ⟨h1, h2⟩
  · left
    have hmem := r.cover _ e he h1
    obtain ⟨it, hit, hat⟩ := r.mem_item hmem
    obtain ⟨e', he', -, hh, hk, hd⟩ := itemAt_inuse hat
    rw [he] at he'; cases he'
    refine ⟨_, it, by rw [hl, h4], hmem, hat, hit, ?_, ?_⟩
    · rw [← hh, h2]
    · simpa [hk] using h3
  · right
    refine ⟨by rw [hl, h1], ?_⟩
    intro it hit hm
    obtain ⟨i, hi, hat⟩ := r.item_mem hit
    obtain ⟨e, he, hst, hh, hk, hd⟩ := itemAt_inuse hat
    obtain ⟨d, hd1, hd2, hd3⟩ := r.probe i e he hst
    have hhv : e.hash = hv := by rw [hh, hm.1]
    rw [hhv] at hd2 hd3
    refine h2 d e (Nat.zero_le _) hd1 (fun d' _ h => hd3 d' h) (by rw [← hd2]; exact he) ⟨hst, hhv, ?_⟩
    simp [hk, hm.2]

theorem lookup_repr {t : HTable K D} {L items} (r : Repr t L items) (hv : BitVec 32)
    (eq : K → Bool) :
    (∃ it, lookup t hv eq = .ok (some it.2.2) ∧ it ∈ items ∧ Matches hv eq it) ∨
    (lookup t hv eq = .ok none ∧ ∀ it ∈ items, ¬ Matches hv eq it) := by
  rcases lookupEntry_repr r hv eq with ⟨i, it, h1, h2, h3, h4, h5⟩ | ⟨h1, h2⟩
  · left
    obtain ⟨e, he, _, _, _, hd⟩ := itemAt_inuse h3
    exact ⟨it, by simp [lookup, h1, he, hd], h4, h5⟩
  · right; exact ⟨by simp [lookup, h1], h2⟩

/-- The items stored in the slots, in slot order. -/
def slotItems (slots : List (Entry K D)) : List (Item K D) := slots.filterMap item?

theorem Repr.slot_perm {t : HTable K D} {L items} (r : Repr t L items) :
    (slotItems t.slots).Perm items := by
  have hmem : ∀ i, i ∈ L ↔ i ∈ (List.range t.slots.length).filter
      (fun i => (itemAt t.slots i).isSome) := by
    intro i
    rw [List.mem_filter, List.mem_range]
    constructor
    · intro h
      obtain ⟨it, _, h2⟩ := r.mem_item h
      obtain ⟨e, he, _⟩ := itemAt_inuse h2
      exact ⟨(List.getElem?_eq_some_iff.1 he).1, by simp [h2]⟩
    · rintro ⟨_, h⟩
      obtain ⟨it, h⟩ := Option.isSome_iff_exists.1 h
      obtain ⟨e, he, hs, _⟩ := itemAt_inuse h
      exact r.cover i e he hs
  have hp : L.Perm ((List.range t.slots.length).filter (fun i => (itemAt t.slots i).isSome)) :=
    (List.perm_ext_iff_of_nodup r.nodup (List.nodup_range.filter _)).2 hmem
  have h1 : items = L.filterMap (itemAt t.slots) := by
    have h := congrArg (List.filterMap id) r.items
    simp only [List.filterMap_map] at h
    have h2 : List.filterMap (id ∘ some) items = items := by
      have : (id ∘ some : Item K D → Option (Item K D)) = some := rfl
      rw [this, List.filterMap_some]
    rw [h2] at h
    exact h.symm
  have h2 : slotItems t.slots = (List.range t.slots.length).filterMap (itemAt t.slots) := by
    unfold slotItems
    generalize hs : t.slots = sl
    clear * -
    induction sl using List.reverseRecOn with
    | nil => rfl
    | append_singleton l a ih =>
      rw [List.filterMap_append, List.length_append, List.length_singleton, List.range_succ,
        List.filterMap_append, ih]
      congr 1
      · apply List.filterMap_congr
        intro i hi
        have := List.mem_range.1 hi
        simp [itemAt, List.getElem?_append_left this]
      · simp [itemAt, List.filterMap_cons]
  have h3 : (List.range t.slots.length).filterMap (itemAt t.slots) =
      ((List.range t.slots.length).filter (fun i => (itemAt t.slots i).isSome)).filterMap
        (itemAt t.slots) := by
    rw [List.filterMap_filter]
    apply List.filterMap_congr
    intro i _
    cases itemAt t.slots i <;> simp
  rw [h1, h2, h3]
  exact (hp.filterMap _).symm

theorem reinsert_repr (es : List (Entry K D)) : ∀ {t : HTable K D} {L items}, Repr t L items →
    (∀ e ∈ es, e.status = .inuse → ∃ k d, e.key = some k ∧ e.data = some d) →
    items.length + (slotItems es).length ≤ t.slots.length →
    ∃ t' L', reinsert es t = .ok t' ∧ Repr t' L' ((slotItems es).reverse ++ items) ∧
      t'.slots.length = t.slots.length := by
  induction es with
  | nil => intro t L items r _ _; exact ⟨t, L, rfl, by simpa [slotItems] using r, rfl⟩
  | cons e es ih =>
    intro t L items r hk hlen
    unfold reinsert
    cases hst : e.status with
    | empty =>
      have h : slotItems (e :: es) = slotItems es := by
        simp [slotItems, item?, hst]
      rw [h] at hlen ⊢
      exact ih r (fun e' he' => hk e' (List.mem_cons_of_mem _ he')) hlen
    | tombstone =>
      have h : slotItems (e :: es) = slotItems es := by
        simp [slotItems, item?, hst]
      rw [h] at hlen ⊢
      exact ih r (fun e' he' => hk e' (List.mem_cons_of_mem _ he')) hlen
    | inuse =>
      obtain ⟨k, d, hek, hed⟩ := hk e (by simp) hst
      have h : slotItems (e :: es) = (e.hash, k, d) :: slotItems es := by
        simp [slotItems, item?, hst, hek, hed]
      rw [h] at hlen ⊢
      simp only [List.length_cons] at hlen
      obtain ⟨t1, i, h1, _, r1, hl1⟩ := insert_repr r k d e.hash (by omega)
      simp only [hek, hed, h1]
      obtain ⟨t2, L2, h2, r2, hl2⟩ := ih r1 (fun e' he' => hk e' (List.mem_cons_of_mem _ he'))
        (by simp only [List.length_cons]; omega)
      refine ⟨t2, L2, h2, ?_, by omega⟩
      simpa using r2

theorem grow_repr {t : HTable K D} {L items} (r : Repr t L items) (n : Nat) (hn : 0 < n)
    (hle : items.length ≤ n) :
    ∃ t' L' items', grow t n = .ok t' ∧ Repr t' L' items' ∧ items'.Perm items ∧
      t'.slots.length = n := by
  obtain ⟨t', L', h1, r1, hl⟩ := reinsert_repr t.slots (blank_repr (K := K) (D := D) hn)
    (by
      intro e he hst
      obtain ⟨i, hi⟩ := List.mem_iff_getElem?.1 he
      obtain ⟨it, _, hat⟩ := r.mem_item (r.cover i e hi hst)
      obtain ⟨e', he', _, _, hk, hd⟩ := itemAt_inuse hat
      rw [hi] at he'; cases he'
      exact ⟨_, _, hk, hd⟩)
    (by simpa [blank, r.slot_perm.length_eq] using hle)
  refine ⟨t', L', _, h1, r1, ?_, by simpa [blank] using hl⟩
  simp only [List.append_nil]
  exact (List.reverse_perm _).trans r.slot_perm

theorem growLoop_spec (count : Nat) : ∀ (fuel size : Nat), 0 < size → 2 * count ≤ size + fuel →
    ∃ n, growLoop count fuel size = .ok n ∧ size ≤ n ∧ count ≤ n / 2 := by
  intro fuel
  induction fuel with
  | zero =>
    intro size hs hf
    refine ⟨size, ?_, Nat.le_refl _, by omega⟩
    rw [growLoop, if_neg (by omega)]
  | succ fuel ih =>
    intro size hs hf
    rw [growLoop]
    by_cases h : count > size / 2
    · rw [if_pos h]
      obtain ⟨n, h1, h2, h3⟩ := ih (size * 2) (by omega) (by omega)
      exact ⟨n, h1, by omega, h3⟩
    · rw [if_neg h]
      exact ⟨size, rfl, Nat.le_refl _, by omega⟩

theorem growSize_spec (count size : Nat) (hs : 0 < size) :
    ∃ n, growSize count size = .ok n ∧ size ≤ n ∧ count ≤ n / 2 :=
  growLoop_spec count _ size hs (by omega)

theorem addto_repr {t : HTable K D} {L items} (r : Repr t L items)
    (k : K) (d : D) (hv : BitVec 32) :
    ∃ t' L' items', addto t k d hv = .ok t' ∧ Repr t' L' ((hv, k, d) :: items') ∧
      items'.Perm items ∧ t.slots.length ≤ t'.slots.length ∧
      t'.count ≤ t'.slots.length / 2 + 1 := by
  obtain ⟨n, hg, hle, hc⟩ := growSize_spec t.count t.slots.length r.pos
  have hcnt := r.count_items
  have hpos := r.pos
  unfold addto
  simp only [size, hg]
  by_cases hne : n ≠ t.slots.length
  · rw [if_pos hne]
    obtain ⟨t1, L1, items1, h1, r1, hp, hl⟩ := grow_repr r n (by omega) (by omega)
    simp only [h1]
    have := hp.length_eq
    obtain ⟨t2, i, h2', _, r2, hl2⟩ := insert_repr r1 k d hv (by omega)
    have h3 := r2.count_items
    simp only [List.length_cons] at h3
    exact ⟨t2, _, items1, h2', r2, hp, by omega, by omega⟩
  · rw [if_neg hne]
    obtain ⟨t2, i, h2', _, r2, hl2⟩ := insert_repr r k d hv (by omega)
    have h3 := r2.count_items
    simp only [List.length_cons] at h3
    exact ⟨t2, _, items, h2', r2, List.Perm.refl _, by omega, by omega⟩

theorem unlink_get (slots : List (Entry K D)) (next prev : Option Nat) (j : Nat) :
    (unlink slots next prev)[j]? = slots[j]?.map (fun x =>
      { x with prev := if next = some j then prev else x.prev,
               next := if prev = some j then next else x.next }) := by
  unfold unlink
  cases next with
  | none =>
    cases prev with
    | none => simp
    | some p =>
      simp only [getElem?_modify']
      by_cases h : p = j
      · simp [h]
      · simp [h]
  | some n =>
    cases prev with
    | none =>
      simp only [getElem?_modify']
      by_cases h : n = j
      · simp [h]
      · simp [h]
    | some p =>
      simp only [getElem?_modify']
      by_cases h : n = j <;> by_cases h2 : p = j <;> simp [h, h2, Function.comp_def]

theorem unlink_length (slots : List (Entry K D)) (next prev : Option Nat) :
    (unlink slots next prev).length = slots.length := by
  unfold unlink; cases next <;> cases prev <;> simp

theorem linked_head {slots : List (Entry K D)} {L : List Nat} {prev head : Option Nat}
    (h : Linked slots prev head L) : head = L.head? := by
  cases L with
  | nil => cases head with
    | none => rfl
    | some a => exact absurd h (by simp [Linked])
  | cons j L => cases head with
    | none => exact absurd h (by simp [Linked])
    | some a => obtain ⟨rfl, _⟩ := h; rfl

theorem linked_mid {slots : List (Entry K D)} {i : Nat} {B : List Nat} {e : Entry K D}
    (he : slots[i]? = some e) : ∀ {A : List Nat} {prev head : Option Nat},
    Linked slots prev head (A ++ i :: B) →
      e.prev = (A.getLast?).or prev ∧ Linked slots (some i) e.next B := by
  intro A
  induction A with
  | nil =>
    intro prev head h
    cases head with
    | none => exact absurd h (by simp [Linked])
    | some a =>
      obtain ⟨rfl, e', he', hp, hl⟩ := h
      rw [he] at he'; cases he'
      exact ⟨by simpa using hp, hl⟩
  | cons a A ih =>
    intro prev head h
    cases head with
    | none => exact absurd h (by simp [Linked])
    | some b =>
      obtain ⟨rfl, e', he', hp, hl⟩ := h
      obtain ⟨h1, h2⟩ := ih hl
      refine ⟨?_, h2⟩
      rw [h1, List.getLast?_cons]
      cases A.getLast? <;> simp

theorem unlink_linked {slots slots' : List (Entry K D)} {i : Nat} {B : List Nat} {e : Entry K D}
    (he : slots[i]? = some e) : ∀ {A : List Nat} {prev head : Option Nat},
    Linked slots prev head (A ++ i :: B) → (A ++ i :: B).Nodup →
    (∀ p, prev = some p → p ∉ A ++ i :: B) →
    (∀ j ∈ A ++ B, ∀ x, slots[j]? = some x → ∃ x', slots'[j]? = some x' ∧
      x'.prev = (if e.next = some j then e.prev else x.prev) ∧
      x'.next = (if e.prev = some j then e.next else x.next)) →
    Linked slots' prev (if A = [] then e.next else head) (A ++ B) := by
  intro A
  induction A with
  | nil =>
    intro prev head h hnd hprev hs
    obtain ⟨hp, hl⟩ := linked_mid (A := []) he h
    simp only [List.getLast?_nil, Option.none_or] at hp
    have hnd' := List.nodup_cons.1 hnd
    simp only [↓reduceIte, List.nil_append]
    cases B with
    | nil =>
      have := linked_head hl
      simp only [List.head?_nil] at this
      rw [this]; simp [Linked]
    | cons b B =>
      have hb := linked_head hl
      simp only [List.head?_cons] at hb
      rw [hb] at hl ⊢
      obtain ⟨_, x, hx, hxp, hl2⟩ := hl
      obtain ⟨x', hx', h1, h2⟩ := hs b (by simp) x hx
      have hpb : e.prev ≠ some b := by
        intro h; rw [hp] at h; exact hprev b h (by simp)
      rw [if_pos hb] at h1
      rw [if_neg hpb] at h2
      refine ⟨rfl, x', hx', by rw [h1, hp], ?_⟩
      rw [h2]
      refine linked_congr hl2 ?_
      intro j hj y hy
      obtain ⟨y', hy', h3, h4⟩ := hs j (by simp [hj]) y hy
      refine ⟨y', hy', ?_, ?_⟩
      · rw [h3, if_neg]
        rw [hb]; intro hc; cases hc
        exact (List.nodup_cons.1 hnd'.2).1 hj
      · rw [h4, if_neg]
        rw [hp]; intro hc; exact hprev j hc (by simp [hj])
  | cons a A ih =>
    intro prev head h hnd hprev hs
    have hmid := linked_mid he h
    simp only [reduceCtorEq, ↓reduceIte, List.cons_append]
    cases head with
    | none => exact absurd h (by simp [Linked])
    | some b =>
      obtain ⟨rfl, x, hx, hxp, hl⟩ := h
      obtain ⟨x', hx', h1, h2⟩ := hs b (by simp) x hx
      have hnd' := List.nodup_cons.1 hnd
      have hnb : e.next ≠ some b := by
        intro hc
        have := linked_head hmid.2
        rw [hc] at this
        exact hnd'.1 (by
          have : b ∈ B := List.mem_of_head? this.symm
          simp [this])
      rw [if_neg hnb] at h1
      refine ⟨rfl, x', hx', by rw [h1, hxp], ?_⟩
      have hih := ih hl hnd'.2 (fun p hp => by cases hp; exact hnd'.1)
        (fun j hj y hy => hs j (List.mem_cons_of_mem _ hj) y hy)
      have : x'.next = if A = [] then e.next else x.next := by
        rw [h2]
        by_cases hA : A = []
        · subst hA
          have := hmid.1
          simp only [List.getLast?_singleton, Option.some_or] at this
          rw [if_pos this, if_pos rfl]
        · rw [if_neg hA, if_neg]
          intro hc
          have h3 := hmid.1
          rw [hc, List.getLast?_cons] at h3
          cases hlast : A.getLast? with
          | none => exact hA (List.getLast?_eq_none_iff.1 hlast)
          | some c =>
            rw [hlast] at h3
            simp at h3
            subst h3
            exact hnd'.1 (by simp [List.mem_of_getLast? hlast])
      rw [this]; exact hih

theorem mem_split_map {α β} {f : α → Option β} {A B : List α} {i : α} : ∀ {items : List β},
    (A ++ i :: B).map f = items.map some →
    ∃ IA it IB, items = IA ++ it :: IB ∧ A.map f = IA.map some ∧ f i = some it ∧
      B.map f = IB.map some := by
  induction A with
  | nil =>
    intro items h
    cases items with
    | nil => simp at h
    | cons it IB => simp at h; exact ⟨[], it, IB, rfl, rfl, h.1, h.2⟩
  | cons a A ih =>
    intro items h
    cases items with
    | nil => simp at h
    | cons x items =>
      simp only [List.cons_append, List.map_cons, List.cons.injEq] at h
      obtain ⟨IA, it, IB, h1, h2, h3, h4⟩ := ih h.2
      exact ⟨x :: IA, it, IB, by rw [h1]; rfl, by simp [h.1, h2], h3, h4⟩

/-- Effect of deleting the entry at index `i` (what `removefrom` does once the entry is found). -/
def removeAt (t : HTable K D) (i : Nat) (e : Entry K D) : HTable K D :=
  { slots := unlink (t.slots.modify i (fun e =>
        { e with key := none, data := none, hash := 0, status := .tombstone })) e.next e.prev,
    count := t.count - 1,
    head := if t.head = some i then e.next else t.head }

theorem removeAt_repr {t : HTable K D} {A B : List Nat} {i : Nat} {items}
    (r : Repr t (A ++ i :: B) items) {e : Entry K D} (he : t.slots[i]? = some e) :
    ∃ IA it IB, items = IA ++ it :: IB ∧ IA.length = A.length ∧ itemAt t.slots i = some it ∧
      Repr (removeAt t i e) (A ++ B) (IA ++ IB) ∧
      (removeAt t i e).slots.length = t.slots.length ∧
      (∃ e', (removeAt t i e).slots[i]? = some e' ∧ e'.next = e.next) := by
  obtain ⟨IA, it, IB, hi1, hi2, hi3, hi4⟩ := mem_split_map r.items
  have hmid := linked_mid he r.linked
  have hnd := r.nodup
  have hiA : i ∉ A := by
    intro h; rw [List.nodup_append] at hnd; exact hnd.2.2 i h i (by simp) rfl
  have hiB : i ∉ B := by
    rw [List.nodup_append] at hnd; exact (List.nodup_cons.1 hnd.2.1).1
  have hAB : (A ++ B).Nodup :=
    hnd.sublist (List.Sublist.append_left (List.sublist_cons_self _ _) _)
  have hnext : e.next ≠ some i := by
    intro h
    have := linked_head hmid.2
    rw [h] at this
    exact hiB (List.mem_of_head? this.symm)
  have hprev : e.prev ≠ some i := by
    intro h
    have := hmid.1
    rw [h] at this
    cases hl : A.getLast? with
    | none => rw [hl] at this; simp at this
    | some c => rw [hl] at this; simp at this; subst this; exact hiA (List.mem_of_getLast? hl)
  have hget : ∀ j, (removeAt t i e).slots[j]? =
      if j = i then some { e with key := none, data := none, hash := 0, status := .tombstone }
      else t.slots[j]?.map (fun x =>
        { x with prev := if e.next = some j then e.prev else x.prev,
                 next := if e.prev = some j then e.next else x.next }) := by
    intro j
    simp only [removeAt]
    rw [unlink_get, getElem?_modify']
    by_cases h : j = i
    · subst h; simp [he, hnext, hprev]
    · simp [h, Ne.symm h]
  have hlen : (removeAt t i e).slots.length = t.slots.length := by
    simp [removeAt, unlink_length]
  refine ⟨IA, it, IB, hi1, ?_, hi3, ?_, hlen, ?_⟩
  · have := congrArg List.length hi2; simpa using this.symm
  · constructor
    · rw [hlen]; exact r.pos
    · have hh : (removeAt t i e).head = if A = [] then e.next else t.head := by
        simp only [removeAt]
        have := linked_head r.linked
        cases A with
        | nil => simp at this; simp [this]
        | cons a A =>
          simp at this
          rw [if_neg, if_neg (by simp)]
          rw [this]; intro h; cases h; exact hiA (by simp)
      rw [hh]
      refine unlink_linked he r.linked r.nodup (by simp) ?_
      intro j hj x hx
      have hji : j ≠ i := by
        rintro rfl
        rcases List.mem_append.1 hj with h | h
        · exact hiA h
        · exact hiB h
      refine ⟨_, by rw [hget, if_neg hji, hx]; rfl, rfl, rfl⟩
    · exact hAB
    · have hsame : ∀ j, j ≠ i → itemAt (removeAt t i e).slots j = itemAt t.slots j := by
        intro j hj
        unfold itemAt
        rw [hget, if_neg hj]
        cases t.slots[j]? <;> simp [item?]
      rw [List.map_append, List.map_append, ← hi2, ← hi4]
      congr 1
      · apply List.map_congr_left; intro j hj; exact hsame j (fun h => hiA (h ▸ hj))
      · apply List.map_congr_left; intro j hj; exact hsame j (fun h => hiB (h ▸ hj))
    · intro j x hx hst
      rw [hget] at hx
      by_cases h : j = i
      · rw [if_pos h] at hx; cases hx; cases hst
      · rw [if_neg h] at hx
        cases hs' : t.slots[j]? with
        | none => simp [hs'] at hx
        | some y =>
          simp [hs'] at hx; subst hx
          have := r.cover j y hs' hst
          simp only [List.mem_append, List.mem_cons] at this ⊢
          tauto
    · simp only [removeAt, r.count, List.length_append, List.length_cons]; omega
    · intro j x hx hst
      rw [hget] at hx
      by_cases h : j = i
      · rw [if_pos h] at hx; cases hx; cases hst
      · rw [if_neg h] at hx
        cases hs' : t.slots[j]? with
        | none => simp [hs'] at hx
        | some y =>
          simp [hs'] at hx; subst hx
          obtain ⟨d, hd1, hd2, hd3⟩ := r.probe j y hs' hst
          unfold Probed
          rw [hlen]
          refine ⟨d, hd1, hd2, ?_⟩
          intro d' hd'
          obtain ⟨z, hz1, hz2⟩ := hd3 d' hd'
          simp only
          rw [hget]
          by_cases h' : (home y.hash t.slots.length + d') % t.slots.length = i
          · rw [if_pos h']; exact ⟨_, rfl, by simp⟩
          · rw [if_neg h', hz1]; exact ⟨_, rfl, hz2⟩
  · refine ⟨{ e with key := none, data := none, hash := 0, status := .tombstone }, ?_, rfl⟩
    rw [hget, if_pos rfl]

theorem removefrom_repr {t : HTable K D} {L items} (r : Repr t L items) (hv : BitVec 32)
    (eq : K → Bool) :
    (∃ i it t' A B IA IB, removefrom t hv eq = .ok (t', true) ∧ L = A ++ i :: B ∧
        items = IA ++ it :: IB ∧ IA.length = A.length ∧ Matches hv eq it ∧
        Repr t' (A ++ B) (IA ++ IB) ∧ t'.slots.length = t.slots.length ∧
        lookupEntry t hv eq = .ok (some i) ∧
        (∃ e e', t.slots[i]? = some e ∧ t'.slots[i]? = some e' ∧ e'.next = e.next)) ∨
    (removefrom t hv eq = .ok (t, false) ∧ ∀ it ∈ items, ¬ Matches hv eq it) := by
  rcases lookupEntry_repr r hv eq with ⟨i, it, h1, h2, h3, h4, h5⟩ | ⟨h1, h2⟩
  · left
    obtain ⟨A, B, hL⟩ := List.append_of_mem h2
    obtain ⟨e, he, _⟩ := itemAt_inuse h3
    subst hL
    obtain ⟨IA, it', IB, q1, q2, q3, q4, q5, e', q6, q7⟩ := removeAt_repr r he
    rw [h3] at q3; cases q3
    refine ⟨i, it, removeAt t i e, A, B, IA, IB, ?_, rfl, q1, q2, h5, q4, q5, h1, e, e', he, q6, q7⟩
    simp [removefrom, h1, he, removeAt]
  · right; exact ⟨by simp [removefrom, h1], h2⟩

end HTable

/-- Induction principle for `foreachEntry`: `Inv s h its` says that in state `s`, the entries
still to be visited from pointer `h` carry the items `its`. -/
theorem foreach_inv {K D σ : Type} (getT : σ → HTable K D)
    (cb : Option K → Option D → σ → Except Fault (σ × Bool))
    (Inv : σ → Option Nat → List (HTable.Item K D) → Prop)
    (hnil : ∀ s h, Inv s h [] → h = none)
    (hcons : ∀ s h it its, Inv s h (it :: its) → ∃ i e s' e', h = some i ∧
      (getT s).slots[i]? = some e ∧ e.key = some it.2.1 ∧ e.data = some it.2.2 ∧
      cb (some it.2.1) (some it.2.2) s = .ok (s', false) ∧ (getT s').slots[i]? = some e' ∧
      Inv s' e'.next its) :
    ∀ (its : List (HTable.Item K D)) (fuel : Nat) (h : Option Nat) (s : σ), its.length ≤ fuel →
      Inv s h its → ∃ s', foreachEntry getT cb fuel h s = .ok s' ∧ Inv s' none [] := by
  intro its
  induction its with
  | nil =>
    intro fuel h s _ hi
    have := hnil s h hi
    subst this
    exact ⟨s, by cases fuel <;> rfl, hi⟩
  | cons it its ih =>
    intro fuel h s hf hi
    obtain ⟨i, e, s', e', rfl, he, hk, hd, hcb, he', hi'⟩ := hcons s h it its hi
    cases fuel with
    | zero => simp at hf
    | succ fuel =>
      obtain ⟨s2, h2, hi2⟩ := ih fuel e'.next s' (by simpa using hf) hi'
      refine ⟨s2, ?_, hi2⟩
      rw [foreachEntry]
      simp only [he, hk, hd, hcb, he', h2]

end Gotcha
