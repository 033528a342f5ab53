import Verif.Spec.Elf
import Mathlib.Data.List.Nodup
import Mathlib.Data.List.Range
import Mathlib.Data.List.Perm.Subperm
/-
The hash lookups of src/elf_ops.c on well-formed tables.
-/
namespace Gotcha.Elf
open Gotcha Spec

theorem toNat_and_not_one (x : BitVec 32) : (x &&& ~~~1#32).toNat = x.toNat / 2 * 2 := by
  have hx := x.isLt
  rw [BitVec.toNat_and]
  apply Nat.eq_of_testBit_eq
  intro i
  rw [Nat.testBit_and, Nat.mul_comm, show (2 : Nat) = 2 ^ 1 from rfl, Nat.testBit_two_pow_mul,
    Nat.testBit_div_two_pow]
  rcases i with _ | i
  · simp
  · by_cases hi : i + 1 < 32
    · have : (~~~1#32).toNat.testBit (i + 1) = true := by
        rw [← BitVec.getLsbD, BitVec.getLsbD_not]
        simp [hi, BitVec.getLsbD_one]
      rw [this]
      simp
    · have : x.toNat.testBit (i + 1) = false := by
        apply Nat.testBit_lt_two_pow
        calc x.toNat < 2 ^ 32 := hx
          _ ≤ 2 ^ (i + 1) := Nat.pow_le_pow_right (by omega) (by omega)
      simp [this]

theorem shr1_eq_iff (w v : BitVec 32) :
    w &&& ~~~1#32 = v &&& ~~~1#32 ↔ w.toNat / 2 = v.toNat / 2 := by
  constructor
  · intro h
    have := congrArg BitVec.toNat h
    rw [toNat_and_not_one, toNat_and_not_one] at this
    omega
  · intro h
    apply BitVec.eq_of_toNat_eq
    rw [toNat_and_not_one, toNat_and_not_one, h]

theorem and_one_ne (w : BitVec 32) : w &&& 1#32 ≠ 0#32 ↔ w.toNat % 2 = 1 := by
  rw [ne_eq, ← BitVec.toNat_inj]
  simp only [BitVec.toNat_and, BitVec.toNat_ofNat]
  rw [show 1 % 2 ^ 32 = 1 by rfl, Nat.and_one_is_mod]
  omega

theorem and_7fff (v : BitVec 16) : (v &&& 0x7fff#16).toNat = v.toNat % 2 ^ 15 := by
  rw [BitVec.toNat_and]
  exact Nat.and_two_pow_sub_one_eq_mod v.toNat 15

/-- The search through the candidates `L`: the first match without versions, the one of highest
version otherwise. -/
def pick (vs : Bool) (m : Nat → Bool) (ver : Nat → Nat) : List Nat → Option Nat → Nat → Option Nat
  | [], l, _ => l
  | i :: L, l, v =>
    if m i then
      if vs then if ver i > v then pick vs m ver L (some i) (ver i) else pick vs m ver L l v
      else some i
    else pick vs m ver L l v

section
variable {vs : Bool} {m : Nat → Bool} {ver : Nat → Nat} {i : Nat} {L : List Nat} {l : Option Nat}
  {v : Nat}

theorem pick_no (h : m i = false) : pick vs m ver (i :: L) l v = pick vs m ver L l v := by
  simp [pick, h]

theorem pick_now (h : m i = true) : pick false m ver (i :: L) l v = some i := by
  simp [pick, h]

theorem pick_up (h : m i = true) (hg : ver i > v) :
    pick true m ver (i :: L) l v = pick true m ver L (some i) (ver i) := by
  simp [pick, h, hg]

theorem pick_keep (h : m i = true) (hg : ¬ ver i > v) :
    pick true m ver (i :: L) l v = pick true m ver L l v := by
  simp only [pick, h, if_true, hg, if_false]

end

theorem pick_ver {m : Nat → Bool} {ver : Nat → Nat} (L : List Nat) : ∀ (l : Option Nat) (v : Nat),
    (l = none → v = 0) →
    ((pick true m ver L l v = none ↔ l = none ∧ ∀ i ∈ L, m i = true → ver i = 0) ∧
    ∀ i, pick true m ver L l v = some i →
      ((l = some i ∧ ∀ j ∈ L, m j = true → ver j ≤ v) ∨
        (i ∈ L ∧ m i = true ∧ v < ver i ∧ ∀ j ∈ L, m j = true → ver j ≤ ver i))) := by
  induction L with
  | nil =>
    intro l v _
    simp [pick]
  | cons i L ih =>
    intro l v hv
    simp only [pick]
    by_cases hm : m i = true
    · simp only [hm, if_true]
      split
      · rename_i hgt
        obtain ⟨h1, h2⟩ := ih (some i) (ver i) (by simp)
        refine ⟨?_, ?_⟩
        · rw [h1]
          constructor
          · rintro ⟨h, -⟩; cases h
          · rintro ⟨hl, h⟩
            have := h i (List.mem_cons_self ..) hm
            omega
        · intro k hk
          right
          rcases h2 k hk with ⟨h3, h4⟩ | ⟨h3, h4, h5, h6⟩
          · cases h3
            refine ⟨List.mem_cons_self .., hm, by omega, ?_⟩
            intro j hj hmj
            rcases List.mem_cons.1 hj with rfl | hj
            · omega
            · exact h4 j hj hmj
          · refine ⟨List.mem_cons_of_mem _ h3, h4, by omega, ?_⟩
            intro j hj hmj
            rcases List.mem_cons.1 hj with rfl | hj
            · omega
            · exact h6 j hj hmj
      · rename_i hle
        obtain ⟨h1, h2⟩ := ih l v hv
        refine ⟨?_, ?_⟩
        · rw [h1]
          constructor
          · rintro ⟨hl, h⟩
            refine ⟨hl, ?_⟩
            intro j hj hmj
            have := hv hl
            rcases List.mem_cons.1 hj with rfl | hj
            · omega
            · exact h j hj hmj
          · rintro ⟨hl, h⟩
            exact ⟨hl, fun j hj => h j (List.mem_cons_of_mem _ hj)⟩
        · intro k hk
          rcases h2 k hk with ⟨h3, h4⟩ | ⟨h3, h4, h5, h6⟩
          · left
            refine ⟨h3, ?_⟩
            intro j hj hmj
            rcases List.mem_cons.1 hj with rfl | hj
            · omega
            · exact h4 j hj hmj
          · right
            refine ⟨List.mem_cons_of_mem _ h3, h4, h5, ?_⟩
            intro j hj hmj
            rcases List.mem_cons.1 hj with rfl | hj
            · omega
            · exact h6 j hj hmj
    · obtain ⟨h1, h2⟩ := ih l v hv
      simp only [hm, if_false, Bool.false_eq_true]
      refine ⟨?_, ?_⟩
      · rw [h1]
        simp [hm]
      · intro k hk
        rcases h2 k hk with ⟨h3, h4⟩ | ⟨h3, h4, h5, h6⟩
        · left
          refine ⟨h3, ?_⟩
          intro j hj hmj
          rcases List.mem_cons.1 hj with rfl | hj
          · exact absurd hmj hm
          · exact h4 j hj hmj
        · right
          refine ⟨List.mem_cons_of_mem _ h3, h4, h5, ?_⟩
          intro j hj hmj
          rcases List.mem_cons.1 hj with rfl | hj
          · exact absurd hmj hm
          · exact h6 j hj hmj

theorem pick_first {m : Nat → Bool} {ver : Nat → Nat} (L : List Nat) (v : Nat) :
    pick false m ver L none v = L.find? m := by
  induction L with
  | nil => rfl
  | cons i L ih =>
    simp only [pick, List.find?_cons, ih]
    cases m i <;> simp

variable {img : Image} {d : DynInfo} {syms : List DynSym}

theorem nameOf_some {i : Nat} {x : DynSym} (h : syms[i]? = some x) : nameOf syms i = x.name := by
  simp [nameOf, h]

theorem nameIs_syms (h : Syms img d syms) {i : Nat} (hi : i < syms.length) (n : Name) :
    nameIs img d n (BitVec.ofNat 32 i) = .ok (decide (n = nameOf syms i)) := by
  have hs := h.short
  obtain ⟨s, h1, -, -, h2⟩ := h.sym i _ (List.getElem?_eq_getElem hi)
  have hin : (BitVec.ofNat 32 i).toNat = i := by rw [BitVec.toNat_ofNat]; omega
  unfold nameIs at'
  rw [hin, h1]
  simp only [h2]
  rw [nameOf_some (List.getElem?_eq_getElem hi)]

theorem verOf_syms (h : Syms img d syms) {i : Nat} (hi : i < syms.length) (hv : d.versym ≠ 0) :
    ∃ v, verOf img d (BitVec.ofNat 32 i) = .ok v ∧ v.toNat = verAt syms i := by
  have hs := h.short
  obtain ⟨v, h1, h2⟩ := h.ver hv i _ (List.getElem?_eq_getElem hi)
  have hin : (BitVec.ofNat 32 i).toNat = i := by rw [BitVec.toNat_ofNat]; omega
  refine ⟨v &&& 0x7fff, ?_, ?_⟩
  · unfold verOf at'
    rw [hin, h1]
  · rw [show (0x7fff : BitVec 16) = 0x7fff#16 from rfl, and_7fff, h2]
    simp [verAt, hi]

/-- One candidate. -/
theorem onMatch_syms (h : Syms img d syms) {i : Nat} (hi : i < syms.length)
    (latest : Option (BitVec 32)) (ver : BitVec 16) :
    (d.versym = 0 → onMatch img d (BitVec.ofNat 32 i) latest ver =
      .ok (.inl (BitVec.ofNat 32 i))) ∧
    (d.versym ≠ 0 → verAt syms i > ver.toNat → ∃ v : BitVec 16, v.toNat = verAt syms i ∧
      onMatch img d (BitVec.ofNat 32 i) latest ver = .ok (.inr (some (BitVec.ofNat 32 i), v))) ∧
    (d.versym ≠ 0 → ¬ verAt syms i > ver.toNat →
      onMatch img d (BitVec.ofNat 32 i) latest ver = .ok (.inr (latest, ver))) := by
  refine ⟨fun hv => by simp [onMatch, hv], fun hv hg => ?_, fun hv hg => ?_⟩ <;>
    obtain ⟨v, h1, h2⟩ := verOf_syms h hi hv
  · refine ⟨v, h2, ?_⟩
    unfold onMatch
    rw [if_neg hv, h1]
    simp only
    rw [if_pos]
    show ver < v
    rw [BitVec.lt_def, h2]; exact hg
  · unfold onMatch
    rw [if_neg hv, h1]
    simp only
    rw [if_neg]
    show ¬ ver < v
    rw [BitVec.lt_def, h2]; exact hg

theorem takeWhile_range {p : Nat → Bool} {i n : Nat} (hi : i < n) (hp : p i = true) :
    (List.range' i (n - i)).takeWhile p = i :: (List.range' (i + 1) (n - (i + 1))).takeWhile p := by
  rw [show n - i = (n - (i + 1)) + 1 by omega, List.range'_succ, List.takeWhile_cons, if_pos hp]

section Gnu
variable {a : Addr} {off nb mw : Nat}

/-- The loop over one bucket. -/
theorem gnuLoop_spec (hs : Syms img d syms) (ht : GnuTable img a syms off nb mw) (name : Name)
    (hv : BitVec 32) (b : Nat) (k : Nat) : ∀ (i fuel : Nat) (latest : Option Nat) (ver : BitVec 16),
    syms.length - i = k → off ≤ i → i < syms.length → gnuHash (nameOf syms i) % nb = b → k ≤ fuel →
    gnuLoop img d (a + BitVec.ofNat 64 (16 + 8 * mw + 4 * nb)) (BitVec.ofNat 32 off) name
        (hv &&& ~~~1#32) fuel (BitVec.ofNat 32 i) (latest.map (BitVec.ofNat 32)) ver =
      .ok ((pick (decide (d.versym ≠ 0))
        (fun j => decide (gnuHash (nameOf syms j) / 2 = hv.toNat / 2 ∧ name = nameOf syms j))
        (verAt syms)
        ((List.range' i (syms.length - i)).takeWhile (fun j => gnuHash (nameOf syms j) % nb = b))
        latest ver.toNat).map (BitVec.ofNat 32)) := by
  have h32 := hs.short
  induction k with
  | zero => intro i fuel latest ver hk _ hi; omega
  | succ k ih =>
    intro i fuel latest ver hk hoff hi hb hf
    obtain ⟨fuel, rfl⟩ := Nat.exists_eq_succ_of_ne_zero (show fuel ≠ 0 by omega)
    obtain ⟨w, hw, hw2, hlast⟩ := ht.chain i hoff hi
    have hin : (BitVec.ofNat 32 i - BitVec.ofNat 32 off).toNat = i - off := by
      have h1 := ht.off32
      rw [BitVec.toNat_sub, BitVec.toNat_ofNat, BitVec.toNat_ofNat]
      omega
    have hword : img.word (at' (a + BitVec.ofNat 64 (16 + 8 * mw + 4 * nb)) 4
        (BitVec.ofNat 32 i - BitVec.ofNat 32 off).toNat) = some w := by
      rw [hin, ← hw]
      unfold at'
      rw [BitVec.add_assoc, ← BitVec.ofNat_add]
    rw [takeWhile_range hi (by simpa using hb)]
    have hsucc : BitVec.ofNat 32 i + 1 = BitVec.ofNat 32 (i + 1) := by
      rw [BitVec.ofNat_add]; rfl
    -- the continuation
    have hcont : ∀ (l : Option Nat) (v : BitVec 16),
        (if w &&& 1#32 ≠ 0#32 then Except.ok (l.map (BitVec.ofNat 32))
          else gnuLoop img d (a + BitVec.ofNat 64 (16 + 8 * mw + 4 * nb)) (BitVec.ofNat 32 off) name
            (hv &&& ~~~1#32) fuel (BitVec.ofNat 32 i + 1) (l.map (BitVec.ofNat 32)) v) =
        .ok ((pick (decide (d.versym ≠ 0))
          (fun j => decide (gnuHash (nameOf syms j) / 2 = hv.toNat / 2 ∧ name = nameOf syms j))
          (verAt syms)
          ((List.range' (i + 1) (syms.length - (i + 1))).takeWhile
            (fun j => gnuHash (nameOf syms j) % nb = b)) l v.toNat).map (BitVec.ofNat 32)) := by
      intro l v
      by_cases hl : i + 1 = syms.length ∨
        gnuHash (nameOf syms (i + 1)) % nb ≠ gnuHash (nameOf syms i) % nb
      · rw [if_pos ((and_one_ne w).2 (hlast.2 hl))]
        have : (List.range' (i + 1) (syms.length - (i + 1))).takeWhile
            (fun j => decide (gnuHash (nameOf syms j) % nb = b)) = [] := by
          rcases hl with hl | hl
          · rw [hl, Nat.sub_self]; rfl
          · by_cases hi2 : i + 1 < syms.length
            · rw [show syms.length - (i + 1) = (syms.length - (i + 2)) + 1 by omega,
                List.range'_succ, List.takeWhile_cons, if_neg]
              simp only [decide_eq_true_eq]
              rw [hb] at hl; exact hl
            · rw [show syms.length - (i + 1) = 0 by omega]; rfl
        rw [this]
        rfl
      · rw [if_neg (fun hc => hl (hlast.1 ((and_one_ne w).1 hc))), hsucc]
        simp only [not_or, ne_eq, not_not] at hl
        exact ih (i + 1) fuel l v (by omega) (by omega) (by omega) (by rw [hl.2, hb]) (by omega)
    have hmatch : (w &&& ~~~1#32 = hv &&& ~~~1#32) ↔
        gnuHash (nameOf syms i) / 2 = hv.toNat / 2 := by
      rw [shr1_eq_iff, hw2]
    by_cases hh : gnuHash (nameOf syms i) / 2 = hv.toNat / 2
    · by_cases hn : name = nameOf syms i
      · obtain ⟨m1, m2, m3⟩ := onMatch_syms hs hi (latest.map (BitVec.ofNat 32)) ver
        have hm : (fun j => decide (gnuHash (nameOf syms j) / 2 = hv.toNat / 2 ∧
          name = nameOf syms j)) i = true := by simp [hh, hn]
        by_cases hv0 : d.versym = 0
        · have hd : decide (d.versym ≠ 0) = false := by simp [hv0]
          rw [hd, pick_now hm, gnuLoop]
          simp only [hword, if_pos (hmatch.2 hh), nameIs_syms hs hi name, decide_eq_true hn, m1 hv0]
          rfl
        · have hd : decide (d.versym ≠ 0) = true := decide_eq_true hv0
          rw [hd] at hcont
          by_cases hg : verAt syms i > ver.toNat
          · obtain ⟨v, e1, e2⟩ := m2 hv0 hg
            rw [hd, pick_up hm hg, ← e1, ← hcont (some i) v, gnuLoop]
            simp only [hword, if_pos (hmatch.2 hh), nameIs_syms hs hi name, decide_eq_true hn, e2]
            rfl
          · rw [hd, pick_keep hm hg, ← hcont latest ver, gnuLoop]
            simp only [hword, if_pos (hmatch.2 hh), nameIs_syms hs hi name, decide_eq_true hn,
              m3 hv0 hg]
      · rw [pick_no (by simp [hn]), ← hcont latest ver, gnuLoop]
        simp only [hword, if_pos (hmatch.2 hh), nameIs_syms hs hi name, decide_eq_false hn]
    · rw [pick_no (by simp [hh]), ← hcont latest ver, gnuLoop]
      simp only [hword, if_neg (fun hc => hh (hmatch.1 hc))]

theorem mem_takeWhile_bucket {p : Nat → Bool} {n : Nat} (m : Nat) : ∀ i, n - i = m → 
    (∀ j k, i ≤ j → j < k → k < n → p k = true → p j = true) → ∀ x,
    (x ∈ (List.range' i (n - i)).takeWhile p ↔ i ≤ x ∧ x < n ∧ p x = true) := by
  induction m with
  | zero =>
    intro i hm _ x
    rw [hm]
    simp only [List.range'_zero, List.takeWhile_nil, List.not_mem_nil, false_iff]
    omega
  | succ m ih =>
    intro i hm hp x
    rw [hm, List.range'_succ, List.takeWhile_cons]
    by_cases hpi : p i = true
    · rw [if_pos hpi, List.mem_cons, show m = n - (i + 1) by omega,
        ih (i + 1) (by omega) (fun j k h1 h2 h3 => hp j k (by omega) h2 h3) x]
      constructor
      · rintro (rfl | ⟨h1, h2, h3⟩)
        · exact ⟨Nat.le_refl _, by omega, hpi⟩
        · exact ⟨by omega, h2, h3⟩
      · rintro ⟨h1, h2, h3⟩
        by_cases e : x = i
        · exact Or.inl e
        · exact Or.inr ⟨by omega, h2, h3⟩
    · rw [if_neg hpi]
      simp only [List.not_mem_nil, false_iff]
      rintro ⟨h1, h2, h3⟩
      by_cases e : x = i
      · exact hpi (e ▸ h3)
      · exact hpi (hp i x (Nat.le_refl _) (by omega) h2 h3)

/-- `lookup_gnu_hash_symbol` with the code's hash function. -/
theorem lookupGnu_spec (hs : Syms img d syms) (ht : GnuTable img d.gnuHash syms off nb mw)
    (name : Name) : ∃ L : List Nat,
      (∀ i, i ∈ L ↔ off ≤ i ∧ i < syms.length ∧
        gnuHash (nameOf syms i) % nb = (gnuHashFunc name).toNat % nb) ∧ L.Pairwise (· < ·) ∧
      lookupGnu img d name = .ok ((pick (decide (d.versym ≠ 0))
        (fun j => decide (gnuHash (nameOf syms j) / 2 = (gnuHashFunc name).toNat / 2 ∧
          name = nameOf syms j)) (verAt syms) L none 0).map (BitVec.ofNat 32)) := by
  have h1 := ht.nb32
  have h2 := ht.pos
  have h32 := hs.short
  set b := (gnuHashFunc name).toNat % nb with hbdef
  have hb : b < nb := Nat.mod_lt _ h2
  obtain ⟨w, hw, hcase⟩ := ht.bucket b hb
  have hnb : (BitVec.ofNat 32 nb).toNat = nb := by rw [BitVec.toNat_ofNat]; omega
  have hmw : (BitVec.ofNat 32 mw).toNat = mw := by
    have := ht.mw32; rw [BitVec.toNat_ofNat]; omega
  have hmod : (gnuHashFunc name % BitVec.ofNat 32 nb).toNat = b := by
    rw [BitVec.toNat_umod, hnb]
  have hne : BitVec.ofNat 32 nb ≠ 0 := by
    intro hc
    have := congrArg BitVec.toNat hc
    rw [hnb] at this
    simp at this
    omega
  have hbk : at' (d.gnuHash + 16) 8 (BitVec.ofNat 32 mw).toNat =
      d.gnuHash + BitVec.ofNat 64 (16 + 8 * mw) := by
    unfold at'
    rw [hmw, BitVec.ofNat_add, ← BitVec.add_assoc]; rfl
  have hadd : ∀ x y : Nat, at' (d.gnuHash + BitVec.ofNat 64 x) 4 y =
      d.gnuHash + BitVec.ofNat 64 (x + 4 * y) := by
    intro x y
    unfold at'
    rw [BitVec.add_assoc, ← BitVec.ofNat_add]
  have hlk : lookupGnu img d name = if w = 0 then .ok none
      else gnuLoop img d (d.gnuHash + BitVec.ofNat 64 (16 + 8 * mw + 4 * nb)) (BitVec.ofNat 32 off)
        name (gnuHashFunc name &&& ~~~1#32) (2 ^ 32) w none 0 := by
    unfold lookupGnu
    rw [ht.hdr0, ht.hdr1, ht.hdr2]
    simp only [if_neg hne, hbk, hmod, hadd, hw, hnb]
  rw [hlk]
  rcases hcase with ⟨rfl, hno⟩ | ⟨hw1, hw2, hw3, hw4⟩
  · refine ⟨[], ?_, List.Pairwise.nil, by simp [pick]⟩
    intro i
    simp only [List.not_mem_nil, false_iff]
    rintro ⟨hi1, hi2, hi3⟩
    exact hno i hi1 hi2 hi3
  · have hw0 : w ≠ 0 := by
      rintro rfl
      have := ht.off0
      simp only [BitVec.ofNat_eq_ofNat, BitVec.toNat_ofNat, Nat.zero_mod] at hw1
      omega
    rw [if_neg hw0]
    refine ⟨(List.range' w.toNat (syms.length - w.toNat)).takeWhile
      (fun j => gnuHash (nameOf syms j) % nb = b), ?_, ?_, ?_⟩
    · intro i
      rw [mem_takeWhile_bucket _ _ rfl]
      · simp only [decide_eq_true_eq]
        constructor
        · rintro ⟨h3, h4, h5⟩; exact ⟨by omega, h4, h5⟩
        · rintro ⟨h3, h4, h5⟩
          refine ⟨?_, h4, h5⟩
          by_contra hlt
          exact hw4 i h3 (by omega) h5
      · intro j k h3 h4 h5 h6
        simp only [decide_eq_true_eq] at h6 ⊢
        by_cases e : j = w.toNat
        · rw [e]; exact hw3
        · have := ht.grouped w.toNat j k hw1 (by omega) h4 h5 (by rw [hw3, h6])
          rw [this, hw3]
    · exact List.Pairwise.sublist (List.takeWhile_sublist _) List.pairwise_lt_range'
    · have := gnuLoop_spec hs ht name (gnuHashFunc name) b (syms.length - w.toNat) w.toNat (2 ^ 32)
        none 0 rfl hw1 hw2 hw3 (by omega)
      rw [BitVec.ofNat_toNat, BitVec.setWidth_eq] at this
      exact this

end Gnu

section Sysv
variable {a : Addr} {nb : Nat}

theorem elfLoop_spec (hs : Syms img d syms) (name : Name) (base : Addr) (L : List Nat) :
    ∀ (y : BitVec 32) (fuel : Nat) (latest : Option Nat) (ver : BitVec 16),
    Chained img base L y → (∀ i ∈ L, i < syms.length) → L.length < fuel →
    elfLoop img d base name fuel y (latest.map (BitVec.ofNat 32)) ver =
      .ok ((pick (decide (d.versym ≠ 0)) (fun j => decide (name = nameOf syms j)) (verAt syms) L
        latest ver.toNat).map (BitVec.ofNat 32)) := by
  have h32 := hs.short
  induction L with
  | nil =>
    intro y fuel latest ver hy _ hf
    obtain ⟨fuel, rfl⟩ := Nat.exists_eq_succ_of_ne_zero (show fuel ≠ 0 by omega)
    rw [Chained] at hy
    simp [elfLoop, hy, pick]
  | cons i L ih =>
    intro y fuel latest ver hy hb hf
    obtain ⟨fuel, rfl⟩ := Nat.exists_eq_succ_of_ne_zero (show fuel ≠ 0 by omega)
    obtain ⟨rfl, h0, y', hw, hl⟩ := hy
    have hi := hb i (List.mem_cons_self ..)
    have hin : (BitVec.ofNat 32 i).toNat = i := by rw [BitVec.toNat_ofNat]; omega
    have hne : BitVec.ofNat 32 i ≠ 0 := by
      intro hc
      have := congrArg BitVec.toNat hc
      rw [hin] at this
      exact h0 this
    have hcont : ∀ (l : Option Nat) (v : BitVec 16),
        elfLoop img d base name fuel y' (l.map (BitVec.ofNat 32)) v =
        .ok ((pick (decide (d.versym ≠ 0)) (fun j => decide (name = nameOf syms j)) (verAt syms) L
          l v.toNat).map (BitVec.ofNat 32)) := fun l v =>
      ih y' fuel l v hl (fun j hj => hb j (List.mem_cons_of_mem _ hj))
        (by simp only [List.length_cons] at hf; omega)
    have hword : img.word (at' base 4 (BitVec.ofNat 32 i).toNat) = some y' := by
      rw [hin]; exact hw
    by_cases hn : name = nameOf syms i
    · obtain ⟨m1, m2, m3⟩ := onMatch_syms hs hi (latest.map (BitVec.ofNat 32)) ver
      have hm : (fun j => decide (name = nameOf syms j)) i = true := by simp [hn]
      by_cases hv0 : d.versym = 0
      · have hd : decide (d.versym ≠ 0) = false := by simp [hv0]
        rw [hd, pick_now hm, elfLoop]
        simp only [if_neg hne, nameIs_syms hs hi name, decide_eq_true hn, m1 hv0]
        rfl
      · have hd : decide (d.versym ≠ 0) = true := decide_eq_true hv0
        rw [hd] at hcont
        by_cases hg : verAt syms i > ver.toNat
        · obtain ⟨v, e1, e2⟩ := m2 hv0 hg
          rw [hd, pick_up hm hg, ← e1, ← hcont (some i) v, elfLoop]
          simp only [if_neg hne, nameIs_syms hs hi name, decide_eq_true hn, e2, hword]
          rfl
        · rw [hd, pick_keep hm hg, ← hcont latest ver, elfLoop]
          simp only [if_neg hne, nameIs_syms hs hi name, decide_eq_true hn, m3 hv0 hg, hword]
    · rw [pick_no (by simp [hn]), ← hcont latest ver, elfLoop]
      simp only [if_neg hne, nameIs_syms hs hi name, decide_eq_false hn, hword]

theorem lookupElf_spec (hs : Syms img d syms) (ht : SysvTable img d.elfHash syms nb)
    (name : Name) : ∃ L : List Nat,
      (∀ i, i ∈ L ↔ 0 < i ∧ i < syms.length ∧
        sysvHash (nameOf syms i) % nb = (elfHashFunc name).toNat % nb) ∧
      lookupElf img d name = .ok ((pick (decide (d.versym ≠ 0))
        (fun j => decide (name = nameOf syms j)) (verAt syms) L none 0).map (BitVec.ofNat 32)) := by
  have h1 := ht.nb32
  have h2 := ht.pos
  have h32 := hs.short
  have hb : (elfHashFunc name).toNat % nb < nb := Nat.mod_lt _ h2
  obtain ⟨w, L, hw, hl, hnd, hmem⟩ := ht.bucket _ hb
  have hnb : (BitVec.ofNat 32 nb).toNat = nb := by rw [BitVec.toNat_ofNat]; omega
  have hmod : (elfHashFunc name % BitVec.ofNat 32 nb).toNat = (elfHashFunc name).toNat % nb := by
    rw [BitVec.toNat_umod, hnb]
  have hne : BitVec.ofNat 32 nb ≠ 0 := by
    intro hc
    have := congrArg BitVec.toNat hc
    rw [hnb] at this
    simp at this
    omega
  have hadd : ∀ y : Nat, at' (d.elfHash + 8) 4 y =
      d.elfHash + BitVec.ofNat 64 (8 + 4 * y) := by
    intro y
    unfold at'
    rw [BitVec.ofNat_add, ← BitVec.add_assoc]; rfl
  refine ⟨L, hmem, ?_⟩
  unfold lookupElf
  rw [ht.hdr0]
  simp only [if_neg hne, hmod, hadd, hw, hnb]
  have hlen : L.length < 2 ^ 32 + 1 := by
    have hsub : L ⊆ List.range syms.length := by
      intro i hi; rw [List.mem_range]; exact ((hmem i).1 hi).2.1
    have := (List.subperm_of_subset hnd hsub).length_le
    simp only [List.length_range] at this
    omega
  exact elfLoop_spec hs name _ L w _ none 0 hl (fun i hi => ((hmem i).1 hi).2.1) hlen

end Sysv

/-- From the search to the specification. -/
theorem pick_newest {off : Nat} {m : Nat → Bool} {L : List Nat} {name : Name} (h32 : syms.length < 2 ^ 32)
    (hm : ∀ i, (i ∈ L ∧ m i = true) ↔ off ≤ i ∧ i < syms.length ∧ nameOf syms i = name) :
    Newest syms off (d.versym ≠ 0) name
      ((pick (decide (d.versym ≠ 0)) m (verAt syms) L none 0).map (BitVec.ofNat 32)) := by
  have hw : ∀ w : Nat, w < syms.length → (BitVec.ofNat 32 w).toNat = w := by
    intro w hw; rw [BitVec.toNat_ofNat]; omega
  by_cases hv : d.versym = 0
  · have : decide (d.versym ≠ 0) = false := by simp [hv]
    rw [this, pick_first]
    refine ⟨?_, ?_⟩
    · rw [Option.map_eq_none_iff, List.find?_eq_none]
      constructor
      · rintro h i ⟨h1, h2, h3, -⟩
        have := (hm i).2 ⟨h1, h2, h3⟩
        exact h i this.1 this.2
      · intro h i hi hmi
        obtain ⟨h1, h2, h3⟩ := (hm i).1 ⟨hi, hmi⟩
        exact h i ⟨h1, h2, h3, fun hc => absurd hv hc⟩
    · intro w hw'
      obtain ⟨i, hi, rfl⟩ := Option.map_eq_some_iff.1 hw'
      obtain ⟨h1, h2, h3⟩ := (hm i).1 ⟨List.mem_of_find?_eq_some hi, List.find?_some hi⟩
      rw [hw i h2]
      exact ⟨⟨h1, h2, h3, fun hc => absurd hv hc⟩, fun hc => absurd hv hc⟩
  · have : decide (d.versym ≠ 0) = true := decide_eq_true hv
    rw [this]
    obtain ⟨p1, p2⟩ := pick_ver (m := m) (ver := verAt syms) L none 0 (fun _ => rfl)
    refine ⟨?_, ?_⟩
    · rw [Option.map_eq_none_iff, p1]
      constructor
      · rintro ⟨-, h⟩ i ⟨h1, h2, h3, h4⟩
        have := (hm i).2 ⟨h1, h2, h3⟩
        exact h4 hv (h i this.1 this.2)
      · intro h
        refine ⟨rfl, fun i hi hmi => ?_⟩
        obtain ⟨h1, h2, h3⟩ := (hm i).1 ⟨hi, hmi⟩
        by_contra hne
        exact h i ⟨h1, h2, h3, fun _ => hne⟩
    · intro w hw'
      obtain ⟨i, hi, rfl⟩ := Option.map_eq_some_iff.1 hw'
      rcases p2 i hi with ⟨h, -⟩ | ⟨h3, h4, h5, h6⟩
      · cases h
      · obtain ⟨q1, q2, q3⟩ := (hm i).1 ⟨h3, h4⟩
        rw [hw i q2]
        refine ⟨⟨q1, q2, q3, fun _ => by omega⟩, fun _ j hj => ?_⟩
        have := (hm j).2 ⟨hj.1, hj.2.1, hj.2.2.1⟩
        exact h6 j this.1 this.2

end Gotcha.Elf
