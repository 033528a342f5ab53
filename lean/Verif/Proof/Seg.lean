import Mathlib.Data.List.Nodup
/-
Segments of singly linked lists.  `nx i` is the `next` field of node `i` (outer `none`: no such
node).  `Seg nx p A q`: starting at pointer `p`, following `next` visits exactly the nodes `A`
and then holds pointer `q`.
-/
namespace Gotcha

def Seg (nx : Nat → Option (Option Nat)) : Option Nat → List Nat → Option Nat → Prop
  | p, [], q => p = q
  | p, i :: A, q => p = some i ∧ ∃ n, nx i = some n ∧ Seg nx n A q

theorem Seg.append {nx : Nat → Option (Option Nat)} {A B : List Nat} {p r : Option Nat} :
    Seg nx p (A ++ B) r ↔ ∃ q, Seg nx p A q ∧ Seg nx q B r := by
  induction A generalizing p with
  | nil => simp [Seg]
  | cons i A ih =>
    simp only [List.cons_append, Seg, ih]
    constructor
    · rintro ⟨h, n, hn, q, h1, h2⟩
      exact ⟨q, ⟨h, n, hn, h1⟩, h2⟩
    · rintro ⟨q, ⟨h, n, hn, h1⟩, h2⟩
      exact ⟨h, n, hn, q, h1, h2⟩

theorem Seg.congr {nx nx' : Nat → Option (Option Nat)} {A : List Nat} {p q : Option Nat}
    (h : ∀ i ∈ A, nx' i = nx i) (hs : Seg nx p A q) : Seg nx' p A q := by
  induction A generalizing p with
  | nil => exact hs
  | cons i A ih =>
    obtain ⟨h1, n, hn, h2⟩ := hs
    refine ⟨h1, n, ?_, ih (fun j hj => h j (List.mem_cons_of_mem _ hj)) h2⟩
    rw [h i (List.mem_cons_self ..), hn]

theorem Seg.mem_some {nx : Nat → Option (Option Nat)} {A : List Nat} {p q : Option Nat}
    (hs : Seg nx p A q) : ∀ i ∈ A, ∃ n, nx i = some n := by
  induction A generalizing p with
  | nil => simp
  | cons i A ih =>
    obtain ⟨_, n, hn, h2⟩ := hs
    intro j hj
    rcases List.mem_cons.1 hj with rfl | hj
    · exact ⟨n, hn⟩
    · exact ih h2 j hj

/-- Following a NULL-terminated chain determines the nodes visited. -/
theorem Seg.unique {nx : Nat → Option (Option Nat)} {A B : List Nat} {p : Option Nat}
    (ha : Seg nx p A none) (hb : Seg nx p B none) : A = B := by
  induction A generalizing p B with
  | nil =>
    cases B with
    | nil => rfl
    | cons b B => obtain ⟨h, _⟩ := hb; simp only [Seg] at ha; rw [ha] at h; cases h
  | cons a A ih =>
    obtain ⟨h1, n, hn, h2⟩ := ha
    cases B with
    | nil => simp only [Seg] at hb; rw [hb] at h1; cases h1
    | cons b B =>
      obtain ⟨h3, m, hm, h4⟩ := hb
      rw [h1] at h3; cases h3
      rw [hn] at hm; cases hm
      rw [ih h2 h4]

/-- A NULL-terminated chain visits no node twice (it would never terminate). -/
theorem Seg.nodup {nx : Nat → Option (Option Nat)} {A : List Nat} {p : Option Nat}
    (ha : Seg nx p A none) : A.Nodup := by
  induction A generalizing p with
  | nil => simp
  | cons a A ih =>
    have ha' := ha
    obtain ⟨h1, n, hn, h2⟩ := ha
    refine List.nodup_cons.2 ⟨?_, ih h2⟩
    intro hmem
    obtain ⟨X, Y, rfl⟩ := List.append_of_mem hmem
    obtain ⟨q, _, h4⟩ := Seg.append.1 h2
    have h5 : Seg nx p (a :: Y) none := ⟨h1, h4.2⟩
    have := Seg.unique ha' h5
    have := congrArg List.length this
    simp at this
    omega

end Gotcha
