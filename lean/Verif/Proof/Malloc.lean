import Verif.Spec.Malloc
import Mathlib.Data.List.Perm.Basic
import Mathlib.Tactic.Common
/-
The allocator refines an abstract allocator that keeps lists of free and used blocks.
-/
namespace Gotcha.Malloc
open Gotcha Gotcha.Spec.Malloc

abbrev Blk := Nat × Nat

theorem load_some {h : Heap} {a v : Nat} (e : h.mem a = some v) : load h a = .ok v := by
  unfold load; rw [e]

theorem store_ok {h : Heap} {a v : Nat} (e : h.mem a ≠ none) :
    store h a v = .ok { h with mem := upd h.mem a (some v) } := by
  unfold store
  cases hm : h.mem a with
  | none => exact absurd hm e
  | some _ => rfl

theorem wrap_lt {x : Nat} (h : x < 2 ^ 64) : wrap x = x := Nat.mod_eq_of_lt h

theorem sub64_le {x y : Nat} (hx : x < 2 ^ 64) (h : y ≤ x) : sub64 x y = x - y := by
  unfold sub64; omega

theorem sub64_gt {x y : Nat} (hx : x < 2 ^ 63) (hy : y ≤ 2 ^ 63) (h : x < y) :
    ¬ sub64 x y < 2 ^ 63 := by
  unfold sub64; omega

/-! ### Tilings -/

theorem tiles_append {a e : Nat} : ∀ {P Q : List Blk}, Tiles a e (P ++ Q) ↔
    ∃ m, Tiles a m P ∧ Tiles m e Q := by
  intro P
  induction P generalizing a with
  | nil => intro Q; simp [Tiles]
  | cons b P ih =>
    intro Q
    simp only [List.cons_append, Tiles]
    constructor
    · rintro ⟨h1, h2⟩
      obtain ⟨m, h3, h4⟩ := ih.mp h2
      exact ⟨m, ⟨h1, h3⟩, h4⟩
    · rintro ⟨m, ⟨h1, h3⟩, h4⟩
      exact ⟨h1, ih.mpr ⟨m, h3, h4⟩⟩

theorem tiles_le : ∀ {P : List Blk} {a e : Nat}, Tiles a e P → a ≤ e
  | [], a, e, h => Nat.le_of_eq h
  | b :: P, a, e, ⟨h1, h2⟩ => by
    have := tiles_le h2
    omega

theorem tiles_mem : ∀ {P : List Blk} {a e : Nat}, Tiles a e P → ∀ b ∈ P,
    a ≤ b.1 ∧ b.1 + 8 + b.2 ≤ e
  | c :: P, a, e, ⟨h1, h2⟩, b, hb => by
    have h3 := tiles_le h2
    rcases List.mem_cons.mp hb with rfl | hb
    · omega
    · have := tiles_mem h2 b hb
      omega

/-- Blocks do not overlap. -/
def Disj (b c : Blk) : Prop := Apart b.1 (8 + b.2) c.1 (8 + c.2)

theorem disj_symm {b c : Blk} (h : Disj b c) : Disj c b := Or.symm h

theorem pairwise_disj {L : List Blk} (h : L.Pairwise Disj) : ∀ {b c : Blk}, b ∈ L → c ∈ L → b ≠ c →
    Disj b c := by
  induction h with
  | nil => intro b c hb; cases hb
  | cons h1 _ ih =>
    intro b c hb hc hne
    rcases List.mem_cons.mp hb with hb' | hb'
    · rcases List.mem_cons.mp hc with hc' | hc'
      · exact absurd (hb'.trans hc'.symm) hne
      · rw [hb']; exact h1 c hc'
    · rcases List.mem_cons.mp hc with hc' | hc'
      · rw [hc']; exact disj_symm (h1 b hb')
      · exact ih hb' hc' hne

theorem tiles_pairwise : ∀ {P : List Blk} {a e : Nat}, Tiles a e P → P.Pairwise Disj
  | [], _, _, _ => List.Pairwise.nil
  | b :: P, a, e, ⟨h1, h2⟩ => by
    refine List.Pairwise.cons ?_ (tiles_pairwise h2)
    intro c hc
    have := tiles_mem h2 c hc
    left
    omega

theorem cover_mem {R B : List Blk} (h : Cover R B) : ∀ b ∈ B, ∃ r ∈ R, r.1 ≤ b.1 ∧
    b.1 + 8 + b.2 ≤ r.1 + r.2 := by
  induction h with
  | nil => intro b hb; cases hb
  | @cons r R bs B ht _ ih =>
    intro b hb
    rcases List.mem_append.mp hb with hb | hb
    · exact ⟨r, List.mem_cons_self .., tiles_mem ht b hb⟩
    · obtain ⟨r', h1, h2⟩ := ih b hb
      exact ⟨r', List.mem_cons_of_mem _ h1, h2⟩

theorem cover_pairwise {R B : List Blk} (h : Cover R B)
    (hR : R.Pairwise (fun r s => Apart r.1 r.2 s.1 s.2)) : B.Pairwise Disj := by
  induction h with
  | nil => exact List.Pairwise.nil
  | @cons r R bs B ht hc ih =>
    rw [List.pairwise_cons] at hR
    rw [List.pairwise_append]
    refine ⟨tiles_pairwise ht, ih hR.2, ?_⟩
    intro b hb c hc'
    have h1 := tiles_mem ht b hb
    obtain ⟨s, hs, h2⟩ := cover_mem hc c hc'
    have h3 := hR.1 s hs
    unfold Disj
    unfold Apart at *
    omega

/-- Cutting a block in two. -/
theorem cover_split {R B : List Blk} (h : Cover R B) : ∀ {P Q : List Blk} {x s n : Nat},
    B = P ++ (x, s) :: Q → n + 8 ≤ s → Cover R (P ++ (x, n) :: (x + 8 + n, s - n - 8) :: Q) := by
  induction h with
  | nil => intro P Q x s n e; simp at e
  | @cons r R bs B ht hc ih =>
    intro P Q x s n e hn
    rcases List.append_eq_append_iff.mp e with ⟨P', e1, e2⟩ | ⟨Q', e1, e2⟩
    · -- the block is in a later region
      rw [e1, List.append_assoc]
      exact Cover.cons ht (ih e2 hn)
    · cases Q' with
      | nil =>
        rw [List.append_nil] at e1
        rw [List.nil_append] at e2
        have := ih (P := []) e2.symm hn
        rw [← e1]
        exact Cover.cons ht this
      | cons q Q' =>
        rw [List.cons_append] at e2
        obtain ⟨e3, e4⟩ := List.cons.inj e2
        subst e3
        subst e1
        obtain ⟨m, h1, h2, h3⟩ := tiles_append.mp ht
        have key : Tiles r.1 (r.1 + r.2) (P ++ (x, n) :: (x + 8 + n, s - n - 8) :: Q') := by
          apply tiles_append.mpr
          refine ⟨m, h1, h2, ?_, ?_⟩
          · show x + 8 + n = m + 8 + n
            have : x = m := h2
            omega
          · have h3' : Tiles (m + 8 + s) (r.1 + r.2) Q' := h3
            show Tiles (m + 8 + n + 8 + (s - n - 8)) _ Q'
            rwa [show m + 8 + n + 8 + (s - n - 8) = m + 8 + s by omega]
        have := Cover.cons key hc
        rw [e4]
        simpa using this

/-! ### The invariant -/

/-- The heap implements the free blocks `fl` (in list order) and the used blocks `us`. -/
structure Inv (h : Heap) (R fl us : List Blk) : Prop where
  cover : ∃ B, Cover R B ∧ (fl ++ us).Perm B
  regsOk : ∀ r ∈ R, 0 < r.1 ∧ r.1 % 8 = 0 ∧ r.1 + r.2 ≤ 2 ^ 63
  regsApart : R.Pairwise (fun r s => Apart r.1 r.2 s.1 s.2)
  sizes : ∀ b ∈ fl ++ us, b.1 % 8 = 0 ∧ b.2 % 8 = 0 ∧ 8 ≤ b.2
  hdr : ∀ b ∈ us, h.mem b.1 = some b.2
  chain : FreeList h.mem h.free fl
  mapped : ∀ x, h.mem x ≠ none ↔ x % 8 = 0 ∧ ∃ r ∈ R, r.1 ≤ x ∧ x < r.1 + r.2

section
variable {h : Heap} {R fl us : List Blk}

theorem Inv.pairwise (I : Inv h R fl us) : (fl ++ us).Pairwise Disj := by
  obtain ⟨B, h1, h2⟩ := I.cover
  exact (List.Perm.pairwise_iff (fun h => disj_symm h) h2).mpr (cover_pairwise h1 I.regsApart)

theorem Inv.bounds (I : Inv h R fl us) {b : Blk} (hb : b ∈ fl ++ us) :
    0 < b.1 ∧ b.1 + 8 + b.2 ≤ 2 ^ 63 ∧ ∃ r ∈ R, r.1 ≤ b.1 ∧ b.1 + 8 + b.2 ≤ r.1 + r.2 := by
  obtain ⟨B, h1, h2⟩ := I.cover
  obtain ⟨r, hr, h3⟩ := cover_mem h1 b (h2.mem_iff.mp hb)
  have := I.regsOk r hr
  exact ⟨by omega, by omega, r, hr, h3⟩

theorem Inv.word (I : Inv h R fl us) {b : Blk} (hb : b ∈ fl ++ us) {x : Nat} (h8 : x % 8 = 0)
    (h1 : b.1 ≤ x) (h2 : x < b.1 + 8 + b.2) : h.mem x ≠ none := by
  obtain ⟨_, _, r, hr, h3⟩ := I.bounds hb
  exact (I.mapped x).mpr ⟨h8, r, hr, by omega, by omega⟩

/-- Two positions of the list of all blocks. -/
theorem Inv.apart_fl_us (I : Inv h R fl us) {b c : Blk} (hb : b ∈ fl) (hc : c ∈ us) : Disj b c := by
  have := I.pairwise
  rw [List.pairwise_append] at this
  exact this.2.2 b hb c hc

end

theorem freeList_congr {mem mem' : Nat → Option Nat} : ∀ {L : List Blk} {cur : Nat},
    FreeList mem cur L → (∀ b ∈ L, mem' b.1 = mem b.1 ∧ mem' (b.1 + 8) = mem (b.1 + 8)) →
    FreeList mem' cur L
  | [], _, h, _ => h
  | b :: L, cur, ⟨h1, h2, nx, h3, h4⟩, he => by
    have hb := he b (List.mem_cons_self ..)
    exact ⟨h1, by rw [hb.1]; exact h2, nx, by rw [hb.2]; exact h3,
      freeList_congr h4 (fun c hc => he c (List.mem_cons_of_mem _ hc))⟩

theorem freeList_split {mem : Nat → Option Nat} : ∀ {P Q : List Blk} {cur : Nat},
    FreeList mem cur (P ++ Q) → ∃ nx, FreeList mem nx Q ∧
      ∀ {mem' : Nat → Option Nat} {Q' : List Blk}, (∀ b ∈ P, mem' b.1 = mem b.1 ∧
        mem' (b.1 + 8) = mem (b.1 + 8)) → FreeList mem' nx Q' → FreeList mem' cur (P ++ Q')
  | [], Q, cur, h => ⟨cur, h, fun _ h' => h'⟩
  | b :: P, Q, cur, ⟨h1, h2, nx, h3, h4⟩ => by
    obtain ⟨ny, h5, h6⟩ := freeList_split h4
    refine ⟨ny, h5, ?_⟩
    intro mem' Q' he h'
    have hb := he b (List.mem_cons_self ..)
    exact ⟨h1, by rw [hb.1]; exact h2, nx, by rw [hb.2]; exact h3,
      h6 (fun c hc => he c (List.mem_cons_of_mem _ hc)) h'⟩

/-! ### Writing to a used block -/

theorem Inv.write {h : Heap} {R fl us : List Blk} (I : Inv h R fl us) {b : Blk} (hb : b ∈ us)
    {x v : Nat} (h1 : b.1 + 8 ≤ x) (h2 : x < b.1 + 8 + b.2) (h8 : x % 8 = 0) :
    store h x v = .ok { h with mem := upd h.mem x (some v) } ∧
    Inv { h with mem := upd h.mem x (some v) } R fl us := by
  have hmap := I.word (List.mem_append_right _ hb) h8 (by omega) h2
  refine ⟨store_ok hmap, ?_⟩
  have hne : ∀ c ∈ us, c.1 ≠ x := by
    intro c hc
    have := (I.pairwise)
    rw [List.pairwise_append] at this
    by_cases hcb : c = b
    · subst hcb; omega
    · have hd := pairwise_disj this.2.1 hc hb hcb
      unfold Disj Apart at hd
      omega
  exact {
    cover := I.cover, regsOk := I.regsOk, regsApart := I.regsApart, sizes := I.sizes
    hdr := by
      intro c hc
      show upd h.mem x (some v) c.1 = _
      rw [upd_ne _ _ (hne c hc)]
      exact I.hdr c hc
    chain := by
      refine freeList_congr I.chain ?_
      intro c hc
      have hd := I.apart_fl_us hc hb
      have hs := I.sizes c (List.mem_append_left _ hc)
      unfold Disj Apart at hd
      exact ⟨upd_ne _ _ (by omega), upd_ne _ _ (by omega)⟩
    mapped := by
      intro y
      show upd h.mem x (some v) y ≠ none ↔ _
      rw [← I.mapped y]
      by_cases hy : y = x
      · subst hy
        rw [upd_self]
        exact ⟨fun _ => hmap, fun _ => by simp⟩
      · rw [upd_ne _ _ hy] }

/-! ### Freeing -/

theorem Inv.free {h : Heap} {R fl us U : List Blk} (I : Inv h R fl us) {b : Blk}
    (hp : us.Perm (b :: U)) :
    ∃ h', free h (b.1 + 8) = .ok h' ∧ Inv h' R (b :: fl) U ∧
      (∀ x, x ≠ b.1 + 8 → h'.mem x = h.mem x) := by
  have hb : b ∈ us := hp.mem_iff.mpr (List.mem_cons_self ..)
  have hbd := I.bounds (List.mem_append_right _ hb)
  have hs := I.sizes b (List.mem_append_right _ hb)
  have e1 : sub64 (b.1 + 8) 8 = b.1 := by
    rw [sub64_le (by omega) (by omega)]; omega
  obtain ⟨w1, w2⟩ := I.write hb (x := b.1 + 8) (v := h.free) (by omega) (by omega) (by omega)
  refine ⟨{ mem := upd h.mem (b.1 + 8) (some h.free), free := b.1 }, ?_, ?_, ?_⟩
  · unfold Malloc.free
    rw [e1]
    simp only
    rw [wrap_lt (by omega), w1]
  · have hperm : (b :: fl ++ U).Perm (fl ++ us) := by
      refine List.Perm.trans ?_ (List.Perm.append_left fl hp.symm)
      simp [List.perm_middle.symm]
    exact {
      cover := by
        obtain ⟨B, c1, c2⟩ := I.cover
        exact ⟨B, c1, hperm.trans c2⟩
      regsOk := I.regsOk, regsApart := I.regsApart
      sizes := fun c hc => I.sizes c (hperm.mem_iff.mp hc)
      hdr := fun c hc => w2.hdr c (hp.mem_iff.mpr (List.mem_cons_of_mem _ hc))
      chain := ⟨rfl, w2.hdr b hb, h.free, upd_self .., w2.chain⟩
      mapped := w2.mapped }
  · intro x hx
    exact upd_ne _ _ hx

/-! ### Splitting -/

/-- The used part and the list of the remaining block, if it is worth keeping. -/
def cut (b : Blk) (n : Nat) : Blk × List Blk :=
  if b.2 - n > 16 then ((b.1, n), [(b.1 + 8 + n, b.2 - n - 8)]) else (b, [])

theorem Inv.split {h : Heap} {R fl us : List Blk} {b : Blk} (I : Inv h R fl (b :: us)) {n : Nat}
    (h8 : n % 8 = 0) (hmin : 8 ≤ n) (hn : n ≤ b.2) :
    ∃ h', splitAllocation h b.1 n = .ok h' ∧
      Inv h' R ((cut b n).2 ++ fl) ((cut b n).1 :: us) ∧
      (∀ x, x < b.1 ∨ b.1 + 8 + b.2 ≤ x → h'.mem x = h.mem x) := by
  have hbm : b ∈ fl ++ (b :: us) := List.mem_append_right _ (List.mem_cons_self ..)
  have hbd := I.bounds hbm
  have hs := I.sizes b hbm
  have hh := I.hdr b (List.mem_cons_self ..)
  unfold splitAllocation cut
  rw [load_some hh]
  simp only
  rw [sub64_le (by omega) hn]
  by_cases hle : b.2 - n ≤ 16
  · rw [if_pos hle, if_neg (by omega)]
    exact ⟨h, rfl, I, fun _ _ => rfl⟩
  · rw [if_neg hle, if_pos (by omega)]
    have m1 := I.word hbm (x := b.1) (by omega) (by omega) (by omega)
    rw [store_ok m1]
    simp only
    rw [wrap_lt (x := b.1 + 8) (by omega), wrap_lt (x := b.1 + 8 + n) (by omega),
      wrap_lt (x := b.1 + 8 + n + 8) (by omega), sub64_le (by omega) (by omega)]
    have m2 : upd h.mem b.1 (some n) (b.1 + 8 + n) ≠ none := by
      rw [upd_ne _ _ (by omega)]
      exact I.word hbm (by omega) (by omega) (by omega)
    rw [store_ok m2]
    simp only
    have m3 : upd (upd h.mem b.1 (some n)) (b.1 + 8 + n) (some (b.2 - n - 8)) (b.1 + 8 + n + 8) ≠
        none := by
      rw [upd_ne _ _ (by omega), upd_ne _ _ (by omega)]
      exact I.word hbm (by omega) (by omega) (by omega)
    rw [store_ok m3]
    refine ⟨_, rfl, ?_, ?_⟩
    · have hout : ∀ x, x < b.1 ∨ b.1 + 8 + b.2 ≤ x →
          upd (upd (upd h.mem b.1 (some n)) (b.1 + 8 + n) (some (b.2 - n - 8))) (b.1 + 8 + n + 8)
            (some h.free) x = h.mem x := by
        intro x hx
        rw [upd_ne _ _ (by omega), upd_ne _ _ (by omega), upd_ne _ _ (by omega)]
      have hpw := I.pairwise
      exact {
        cover := by
          obtain ⟨B, c1, c2⟩ := I.cover
          obtain ⟨P, Q, e⟩ := List.append_of_mem (c2.mem_iff.mp hbm)
          refine ⟨_, cover_split c1 (x := b.1) (s := b.2) (n := n) e (by omega), ?_⟩
          have h1 : (fl ++ us).Perm (P ++ Q) := by
            have : (b :: (fl ++ us)).Perm (b :: (P ++ Q)) := by
              refine List.Perm.trans ?_ (c2.trans ?_)
              · exact List.perm_middle.symm
              · rw [e]; exact List.perm_middle
            exact this.cons_inv
          have h2 : ([(b.1 + 8 + n, b.2 - n - 8)] ++ fl ++ (b.1, n) :: us).Perm
              ((b.1, n) :: (b.1 + 8 + n, b.2 - n - 8) :: (fl ++ us)) := by
            refine List.perm_middle.trans ?_
            simp
          refine h2.trans ?_
          have h3 : (P ++ (b.1, n) :: (b.1 + 8 + n, b.2 - n - 8) :: Q).Perm
              ((b.1, n) :: (b.1 + 8 + n, b.2 - n - 8) :: (P ++ Q)) :=
            List.perm_middle.trans (List.Perm.cons _ List.perm_middle)
          exact ((h1.cons _).cons _).trans h3.symm
        regsOk := I.regsOk, regsApart := I.regsApart
        sizes := by
          intro c hc
          simp only [List.singleton_append, List.cons_append, List.mem_cons, List.mem_append,
            List.nil_append] at hc
          rcases hc with rfl | hc | rfl | hc
          · refine ⟨?_, ?_, ?_⟩ <;> simp only <;> omega
          · exact I.sizes c (List.mem_append_left _ hc)
          · exact ⟨hs.1, h8, hmin⟩
          · exact I.sizes c (List.mem_append_right _ (List.mem_cons_of_mem _ hc))
        hdr := by
          intro c hc
          rcases List.mem_cons.mp hc with rfl | hc
          · simp only
            rw [upd_ne _ _ (by omega), upd_ne _ _ (by omega), upd_self]
          · have hd : Disj b c := by
              rw [List.pairwise_append, List.pairwise_cons] at hpw
              exact hpw.2.1.1 c hc
            unfold Disj Apart at hd
            have hsc := I.sizes c (List.mem_append_right _ (List.mem_cons_of_mem _ hc))
            refine (hout c.1 (by omega)).trans ?_
            exact I.hdr c (List.mem_cons_of_mem _ hc)
        chain := by
          refine ⟨rfl, ?_, h.free, upd_self .., ?_⟩
          · simp only
            rw [upd_ne _ _ (by omega), upd_self]
          · refine freeList_congr I.chain ?_
            intro c hc
            have hd := I.apart_fl_us hc (List.mem_cons_self (a := b) (l := us))
            have hsc := I.sizes c (List.mem_append_left _ hc)
            unfold Disj Apart at hd
            exact ⟨hout _ (by omega), hout _ (by omega)⟩
        mapped := by
          intro y
          rw [← I.mapped y]
          show upd (upd (upd h.mem b.1 (some n)) (b.1 + 8 + n) (some (b.2 - n - 8)))
            (b.1 + 8 + n + 8) (some h.free) y ≠ none ↔ _
          by_cases hy3 : y = b.1 + 8 + n + 8
          · subst hy3
            rw [upd_self]
            exact ⟨fun _ => I.word hbm (by omega) (by omega) (by omega), fun _ => by simp⟩
          · rw [upd_ne _ _ hy3]
            by_cases hy2 : y = b.1 + 8 + n
            · subst hy2
              rw [upd_self]
              exact ⟨fun _ => I.word hbm (by omega) (by omega) (by omega), fun _ => by simp⟩
            · rw [upd_ne _ _ hy2]
              by_cases hy1 : y = b.1
              · subst hy1
                rw [upd_self]
                exact ⟨fun _ => m1, fun _ => by simp⟩
              · rw [upd_ne _ _ hy1] }
    · intro x hx
      show upd (upd (upd h.mem b.1 (some n)) (b.1 + 8 + n) (some (b.2 - n - 8)))
            (b.1 + 8 + n + 8) (some h.free) x = _
      rw [upd_ne _ _ (by omega), upd_ne _ _ (by omega), upd_ne _ _ (by omega)]

end Gotcha.Malloc
