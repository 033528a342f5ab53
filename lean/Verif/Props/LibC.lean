import Verif.Proof.Atoi
import Mathlib.Tactic.IntervalCases
import Mathlib.Tactic.FinCases
/-
Properties C39-C43, C47 and C48: the string and memory functions used without libc.
-/
namespace Gotcha.LibC
open Gotcha Gotcha.Spec.LibC

/-- A memory with the bytes `bs` at address `p` and nothing else (for the examples). -/
def at_ (p : Addr) (bs : List UInt8) : Mem := fun a => bs[(a - p).toNat]?

/-- Two such memories side by side. -/
def both (m m' : Mem) : Mem := fun a => (m a).or (m' a)

/-- "ab", "abc", "a=bab" and "b" for the examples. -/
def demo : Mem :=
  both (at_ 0x1000 [97, 98, 0]) (both (at_ 0x2000 [97, 98, 99, 0])
    (both (at_ 0x3000 [97, 61, 98, 97, 98, 0]) (at_ 0x4000 [98, 0])))

theorem demo_ab : CStr demo 0x1000 [97, 98] := by
  refine ⟨by decide, by decide, by decide, by decide, ?_⟩
  show demo _ = some 0
  decide
theorem demo_abc : CStr demo 0x2000 [97, 98, 99] := by
  refine ⟨by decide, by decide, by decide, by decide, by decide, by decide, ?_⟩
  show demo _ = some 0
  decide
theorem demo_abab : CStr demo 0x3000 [97, 61, 98, 97, 98] := by
  refine ⟨by decide, by decide, by decide, by decide, by decide, by decide, by decide, by decide,
    by decide, by decide, ?_⟩
  show demo _ = some 0
  decide
theorem demo_b : CStr demo 0x4000 [98] := by
  refine ⟨by decide, by decide, ?_⟩
  show demo _ = some 0
  decide

/-! ### C39 -/

/-- C39: `gotcha_strcmp` returns 0 exactly for equal strings, and it returns without fault for all
strings an `int` can index (only the first one must be that short). -/
theorem C39_strcmp {m : Mem} {p q : Addr} {s t : Name} (hs : CStr m p s) (ht : CStr m q t)
    (hl : s.length < 2 ^ 31) : ∃ r, strcmp m p q = .ok r ∧ (r = 0 ↔ s = t) :=
  strcmpLoop_spec s t (2 ^ 31) 0 hl (by rw [off_zero]; exact hs) (by rw [off_zero]; exact ht)

example : ∃ r, strcmp demo 0x1000 0x2000 = .ok r ∧ r ≠ 0 := by
  obtain ⟨r, h1, h2⟩ := C39_strcmp demo_ab demo_abc (by decide)
  exact ⟨r, h1, fun h => absurd (h2.mp h) (by decide)⟩

/-- C39: `gotcha_strncmp` returns 0 exactly when the two buffers show the same characters up to
a terminator or `n` characters.  The buffers need not be terminated. -/
theorem C39_strncmp {m : Mem} {p q : Addr} {n : BitVec 32} {s t : Name}
    (hs : Seen m p n.toInt.toNat s) (ht : Seen m q n.toInt.toNat t) :
    ∃ r, strncmp m p q n = .ok r ∧ (r = 0 ↔ s = t) :=
  strncmpLoop_spec n.toInt.toNat 0 s t (by rw [off_zero]; exact hs) (by rw [off_zero]; exact ht)

/-- C39: for strings, that is equality of the first `n` characters. -/
theorem C39_strncmp_strings {m : Mem} {p q : Addr} {n : BitVec 32} {s t : Name}
    (hs : CStr m p s) (ht : CStr m q t) :
    ∃ r, strncmp m p q n = .ok r ∧ (r = 0 ↔ s.take n.toInt.toNat = t.take n.toInt.toNat) :=
  C39_strncmp (hs.seen _) (ht.seen _)

example : strncmp demo 0x1000 0x2000 2 = .ok 0 := by
  obtain ⟨r, h1, h2⟩ := C39_strncmp_strings (n := 2) demo_ab demo_abc
  rw [h1, h2.mpr (by decide)]

/-- C39: `gotcha_strcmp` is not an ordering: it is positive for "ab" against "abc" and also for
"abc" against "ab". -/
theorem C39_not_an_ordering : ∃ (m : Mem) (p q : Addr) (s t : Name), CStr m p s ∧ CStr m q t ∧
    ∃ r r', strcmp m p q = .ok r ∧ strcmp m q p = .ok r' ∧ 0 < r ∧ 0 < r' := by
  refine ⟨demo, 0x1000, 0x2000, _, _, demo_ab, demo_abc, 1, 99, ?_, ?_, by decide, by decide⟩
  · decide +kernel
  · decide +kernel

/-! ### C40 -/

theorem occursAt_iff {n h : Name} {i : Nat} (hi : i ≤ h.length) :
    OccursAt n h i ↔ n <+: h.drop i := by
  constructor
  · rintro ⟨pre, post, h1, h2⟩
    subst h1 h2
    rw [List.append_assoc, List.drop_left]
    exact ⟨post, rfl⟩
  · rintro ⟨post, h1⟩
    refine ⟨h.take i, post, ?_, by simpa using hi⟩
    rw [List.append_assoc, h1, List.take_append_drop]

/-- C40, exact result: for a non-empty needle, NULL when it does not occur, otherwise the needle's
own address plus the position of the first occurrence. -/
theorem C40_strstr_result {m : Mem} {hay nee : Addr} {h n : Name} (hh : CStr m hay h)
    (hn : CStr m nee n) (lh : h.length < 2 ^ 31) (ln : n.length < 2 ^ 31) :
    ∃ r, strstr m hay nee = .ok r ∧
      (r = none → n = [] ∨ ∀ i, ¬ OccursAt n h i) ∧
      (∀ q, r = some q → n ≠ [] ∧ ∃ i, q = nee + BitVec.ofNat 64 i ∧ OccursAt n h i ∧
        ∀ j < i, ¬ OccursAt n h j) := by
  cases n with
  | nil =>
    refine ⟨none, ?_, by simp, by simp⟩
    simp [strstr, load_some (show m nee = some 0 from hn)]
  | cons c s =>
    obtain ⟨r, h1, h2, h3⟩ := strstrLoop_spec (hay := hay) hn (by simpa using ln) h (2 ^ 31) 0 lh
      (by rw [off_zero]; exact hh)
    refine ⟨r, ?_, ?_, ?_⟩
    · unfold strstr
      rw [load_some hn.2.1]
      simp only [if_neg hn.1]
      exact h1
    · intro hr
      right
      rintro i ⟨pre, post, e, _⟩
      exact h2 hr ⟨pre, post, e.symm⟩
    · intro q hq
      obtain ⟨k, e, hp, hmin⟩ := h3 q hq
      have hk : k ≤ h.length := by
        have := hp.length_le
        simp at this
        omega
      refine ⟨by simp, k, ?_, (occursAt_iff hk).mpr hp, ?_⟩
      · rw [e, Nat.zero_add]; rfl
      · intro j hj ho
        exact hmin j hj ((occursAt_iff (by omega)).mp ho)

/-- C40: the result is non-NULL exactly when the needle is not empty and occurs. -/
theorem C40_strstr_found {m : Mem} {hay nee : Addr} {h n : Name} (hh : CStr m hay h)
    (hn : CStr m nee n) (lh : h.length < 2 ^ 31) (ln : n.length < 2 ^ 31) :
    ∃ r, strstr m hay nee = .ok r ∧ (r ≠ none ↔ n ≠ [] ∧ ∃ i, OccursAt n h i) := by
  obtain ⟨r, h1, h2, h3⟩ := C40_strstr_result hh hn lh ln
  refine ⟨r, h1, ?_, ?_⟩
  · intro hr
    obtain ⟨q, hq⟩ := Option.ne_none_iff_exists'.mp hr
    obtain ⟨a, i, _, b, _⟩ := h3 q hq
    exact ⟨a, i, b⟩
  · rintro ⟨a, i, b⟩ hr
    rcases h2 hr with h | h
    · exact a h
    · exact h i b

example : ∃ r, strstr demo 0x3000 0x1000 = .ok r ∧ r ≠ none := by
  obtain ⟨r, h1, h2⟩ := C40_strstr_found demo_abab demo_ab (by decide) (by decide)
  exact ⟨r, h1, h2.mpr ⟨by decide, 3, [97, 61, 98], [], rfl, rfl⟩⟩

/-- C40: the returned pointer is never the position in the haystack, unless both arguments are the
same pointer. -/
theorem C40_pointer_refuted {m : Mem} {hay nee : Addr} {h n : Name} (hh : CStr m hay h)
    (hn : CStr m nee n) (lh : h.length < 2 ^ 31) (ln : n.length < 2 ^ 31) (hne : hay ≠ nee)
    {q : Addr} (hq : strstr m hay nee = .ok (some q)) :
    ∀ i, OccursAt n h i → (∀ j < i, ¬ OccursAt n h j) → q ≠ hay + BitVec.ofNat 64 i := by
  intro i hi hmin he
  obtain ⟨r, h1, _, h3⟩ := C40_strstr_result hh hn lh ln
  rw [h1] at hq
  obtain ⟨_, k, hk, hok, hkmin⟩ := h3 q (Except.ok.inj hq)
  have : i = k := by
    rcases Nat.lt_trichotomy i k with hlt | heq | hgt
    · exact absurd hi (hkmin i hlt)
    · exact heq
    · exact absurd hok (hmin k hgt)
  subst this
  rw [hk] at he
  exact hne (by simpa using he.symm)

example : strstr demo 0x3000 0x1000 = .ok (some 0x1003) := by decide +kernel

/-! ### C41 -/

/-- C41: `gotcha_strlen` returns the length of the string. -/
theorem C41_strlen {m : Mem} {p : Addr} {s : Name} (h : CStr m p s) :
    strlen m p = .ok s.length := strlen_spec h

example : strlen demo 0x3000 = .ok 5 := C41_strlen demo_abab

/-- C41: `gotcha_strnlen` returns the smaller of the length and the bound. -/
theorem C41_strnlen {m : Mem} {p : Addr} {s : Name} (h : CStr m p s) (n : BitVec 64) :
    strnlen m p n = .ok (Nat.min s.length n.toNat) := by
  have := strnlenLoop_spec (max := n.toNat) s (2 ^ 64) 0 h.short (Nat.zero_le _) (p := p)
    (by rw [off_zero]; exact h)
  rw [Nat.zero_add] at this
  exact this

example : strnlen demo 0x3000 3 = .ok 3 := C41_strnlen demo_abab 3
example : strnlen demo 0x3000 30 = .ok 5 := C41_strnlen demo_abab 30

/-- C41: it reads the byte after the bound: a buffer of exactly `n` characters without terminator,
at the end of mapped memory, makes it fault. -/
theorem C41_strnlen_overread {m : Mem} {p : Addr} {n : BitVec 64}
    (h : ∀ i < n.toNat, ∃ c, m (p + BitVec.ofNat 64 i) = some c ∧ c ≠ 0)
    (hend : m (p + n) = none) : strnlen m p n = .error .outOfBounds := by
  have := strnlenLoop_bytes (m := m) (p := p) (max := n.toNat) (2 ^ 64) 0 n.toNat n.isLt
    (Nat.zero_add _) (fun j _ hj => h j hj)
  unfold strnlen
  rw [this, show off p n.toNat = p + n by unfold off; rw [BitVec.ofNat_toNat, BitVec.setWidth_eq],
    hend]

example : strnlen (at_ 0x1000 [97, 98]) 0x1000 2 = .error .outOfBounds := by
  apply C41_strnlen_overread
  · intro i hi
    have : i < 2 := hi
    interval_cases i
    · exact ⟨97, by decide, by decide⟩
    · exact ⟨98, by decide, by decide⟩
  · decide

/-- C41: with that byte readable the bound is respected. -/
theorem C41_strnlen_unterminated {m : Mem} {p : Addr} {n : BitVec 64}
    (h : ∀ i < n.toNat, ∃ c, m (p + BitVec.ofNat 64 i) = some c ∧ c ≠ 0)
    (hend : m (p + n) ≠ none) : strnlen m p n = .ok n.toNat := by
  have := strnlenLoop_bytes (m := m) (p := p) (max := n.toNat) (2 ^ 64) 0 n.toNat n.isLt
    (Nat.zero_add _) (fun j _ hj => h j hj)
  unfold strnlen
  rw [this, show off p n.toNat = p + n by unfold off; rw [BitVec.ofNat_toNat, BitVec.setWidth_eq]]
  cases hm : m (p + n) with
  | none => exact absurd hm hend
  | some c => rfl

/-- Two characters and a third, of which no terminator follows. -/
example : strnlen (at_ 0x1000 [97, 98, 99]) 0x1000 2 = .ok 2 := by
  refine C41_strnlen_unterminated (n := 2) ?_ (by decide)
  intro i hi
  have : i < 2 := hi
  interval_cases i
  · exact ⟨97, by decide, by decide⟩
  · exact ⟨98, by decide, by decide⟩

/-! ### C42 -/

/-- C42: `gotcha_getenv` returns the value of the first entry that defines the variable, and NULL
when none does.  `env` are the entries of `__environ` with their addresses. -/
theorem C42_getenv {m : Mem} {p : Addr} {name : Name} (hn : CStr m p name)
    (hl : name.length < 2 ^ 31) (env : List (Addr × Name)) (he : ∀ e ∈ env, CStr m e.1 e.2) :
    ∃ r, getenv m p (env.map (·.1)) = .ok r ∧
      (r = none → ∀ e ∈ env, ¬ EnvDefines name e.2) ∧
      (∀ q, r = some q → ∃ before e value after, env = before ++ e :: after ∧
        (∀ b ∈ before, ¬ EnvDefines name b.2) ∧ e.2 = name ++ 61 :: value ∧ CStr m q value) := by
  unfold getenv
  rw [strlen_spec hn]
  simp only
  have hto : (BitVec.ofNat 32 name.length).toInt.toNat = name.length := by
    rw [BitVec.toInt_eq_toNat_cond, BitVec.toNat_ofNat, Nat.mod_eq_of_lt (by omega)]
    rw [if_pos (by omega)]
    exact Int.toNat_natCast _
  have hse : (BitVec.ofNat 32 name.length).signExtend 64 = BitVec.ofNat 64 name.length := by
    apply BitVec.eq_of_toInt_eq
    rw [BitVec.toInt_signExtend_of_le (by decide)]
    rw [BitVec.toInt_eq_toNat_cond, BitVec.toInt_eq_toNat_cond, BitVec.toNat_ofNat,
      BitVec.toNat_ofNat, Nat.mod_eq_of_lt (by omega), Nat.mod_eq_of_lt (by omega),
      if_pos (by omega), if_pos (by omega)]
  induction env with
  | nil => exact ⟨none, rfl, by simp, by simp⟩
  | cons e env ih =>
    obtain ⟨r, h1, h2, h3⟩ := ih (fun x hx => he x (List.mem_cons_of_mem _ hx))
    have hes := he e (List.mem_cons_self ..)
    -- going on to the next entry
    have goon : ¬ EnvDefines name e.2 → ∃ r', (Except.ok r : Except Fault (Option Addr)) = .ok r' ∧
        (r' = none → ∀ x ∈ e :: env, ¬ EnvDefines name x.2) ∧
        (∀ q, r' = some q → ∃ before x value after, e :: env = before ++ x :: after ∧
          (∀ b ∈ before, ¬ EnvDefines name b.2) ∧ x.2 = name ++ 61 :: value ∧ CStr m q value) := by
      intro hnd
      refine ⟨r, rfl, ?_, ?_⟩
      · intro hr x hx
        rcases List.mem_cons.mp hx with rfl | hx
        · exact hnd
        · exact h2 hr x hx
      · intro q hq
        obtain ⟨before, x, value, after, a, b, c, d⟩ := h3 q hq
        refine ⟨e :: before, x, value, after, by rw [a]; rfl, ?_, c, d⟩
        intro y hy
        rcases List.mem_cons.mp hy with rfl | hy
        · exact hnd
        · exact b y hy
    obtain ⟨z, hz, hz0⟩ := C39_strncmp_strings (n := BitVec.ofNat 32 name.length) hn hes
    rw [hto, List.take_length] at hz0
    rw [List.map_cons, getenvLoop, hz]
    simp only
    by_cases hzz : z = 0
    · rw [if_neg (by simpa using hzz)]
      have hpre : name <+: e.2 := by
        rw [hz0.mp hzz]; exact List.take_prefix _ _
      obtain ⟨rest, hrest⟩ := hpre
      have hdrop := hes.drop name.length (by rw [← hrest]; simp)
      rw [← hrest, List.drop_left] at hdrop
      have hoff : off e.1 name.length = e.1 + BitVec.ofNat 64 name.length := rfl
      rw [hoff] at hdrop
      rw [hse]
      cases rest with
      | nil =>
        rw [load_some (show m (e.1 + BitVec.ofNat 64 name.length) = some 0 from hdrop)]
        simp only [show (0 : UInt8) ≠ 61 by decide, ne_eq, not_false_eq_true, if_true]
        rw [h1]
        apply goon
        rintro ⟨value, hv⟩
        rw [← hrest] at hv
        have := congrArg List.length hv
        simp at this
      | cons c rest =>
        rw [load_some hdrop.2.1]
        simp only
        by_cases hc : c = 61
        · subst hc
          rw [if_neg (by simp)]
          refine ⟨_, rfl, by simp, ?_⟩
          intro q hq
          refine ⟨[], e, rest, env, rfl, by simp, hrest.symm, ?_⟩
          rw [← Option.some.inj hq]
          exact hdrop.2.2
        · rw [if_pos hc, h1]
          apply goon
          rintro ⟨value, hv⟩
          rw [← hrest] at hv
          exact hc (List.cons.inj (List.append_cancel_left hv)).1
    · rw [if_pos hzz, h1]
      apply goon
      rintro ⟨value, hv⟩
      apply hzz
      rw [hz0, hv]
      simp

/-- The environment `{"abc", "a=bab"}`: "a" is defined with value "bab", "ab" is not. -/
def demoEnv : Mem := both demo (at_ 0x5000 [97, 0])

example : ∃ q, getenv demoEnv 0x5000 [0x2000, 0x3000] = .ok (some q) ∧
    CStr demoEnv q [98, 97, 98] := by
  have hn : CStr demoEnv 0x5000 [97] := by
    refine ⟨by decide, by decide, ?_⟩
    show demoEnv _ = some 0
    decide
  have h2 : CStr demoEnv 0x2000 [97, 98, 99] := by
    refine ⟨by decide, by decide, by decide, by decide, by decide, by decide, ?_⟩
    show demoEnv _ = some 0
    decide
  have h3 : CStr demoEnv 0x3000 [97, 61, 98, 97, 98] := by
    refine ⟨by decide, by decide, by decide, by decide, by decide, by decide, by decide, by decide,
      by decide, by decide, ?_⟩
    show demoEnv _ = some 0
    decide
  obtain ⟨r, h, g1, g2⟩ := C42_getenv hn (by decide)
    [(0x2000, [97, 98, 99]), (0x3000, [97, 61, 98, 97, 98])] (by
      intro e he
      simp only [List.mem_cons, List.not_mem_nil, or_false] at he
      rcases he with rfl | rfl
      · exact h2
      · exact h3)
  cases r with
  | none => exact absurd ⟨[98, 97, 98], rfl⟩ (g1 rfl (0x3000, [97, 61, 98, 97, 98]) (by simp))
  | some q =>
    refine ⟨q, h, ?_⟩
    obtain ⟨before, e, value, after, a, b, c, d⟩ := g2 q rfl
    rcases before with _ | ⟨x, _ | ⟨y, before⟩⟩
    · simp only [List.nil_append, List.cons.injEq] at a
      rw [← a.1] at c
      simp at c
    · simp only [List.cons_append, List.nil_append, List.cons.injEq] at a
      rw [← a.2.1] at c
      have : value = [98, 97, 98] := by simpa using c.symm
      rw [this] at d
      exact d
    · simp at a

/-! ### C43 -/

/-- C43: up to nine digits the value is exact; whatever follows is ignored. -/
theorem C43_atoi {m : Mem} {p : Addr} {k : Nat} {ds : Name} {c : UInt8}
    (h : Numeral m p k ds c) (hl : ds.length ≤ 9) :
    atoi m p = .ok ((-1) ^ k * (decimal ds : Int)) := by
  have h9 : decimal ds < 10 ^ 9 := lt_of_lt_of_le (decimal_lt ds h.digits)
    (Nat.pow_le_pow_right (by omega) hl)
  have h9' : decimal ds < 1000000000 := by norm_num at h9; exact h9
  unfold atoi
  rw [h.neg]
  simp only
  rw [atoiLen_spec h.tail h.digits h.ends ds.length (2 ^ 31) 0 (by omega) (Nat.zero_add _)]
  simp only
  have hv := atoiVal_spec (bytes_append h.tail).1 h.digits hl ds.length 0 (Nat.add_zero _)
  rw [List.drop_length] at hv
  rw [show ((0 : Int)) = ((decimal [] : Nat) : Int) from rfl,
    show ((1 : Int)) = ((10 ^ 0 : Nat) : Int) from rfl, hv]
  simp only
  rcases neg_one_cases k with e | e
  · rw [show ((-((10 ^ 0 : Nat) : Int)) ^ k) = 1 from e]
    rw [int32_ok (by omega)]
    congr 1
    ring
  · rw [show ((-((10 ^ 0 : Nat) : Int)) ^ k) = -1 from e]
    rw [int32_ok (by omega)]
    congr 1
    ring

/-- "--12x", and a number with ten digits. -/
def demoNum : Mem := both (at_ 0x1000 [45, 49, 50, 120]) (at_ 0x2000 [49, 48, 48, 48, 48, 48, 48, 48, 48, 48, 0])

theorem demo_num : Numeral demoNum 0x1000 1 [49, 50] 120 where
  bytes := ⟨by decide, by decide, by decide, by decide, trivial⟩
  digits := by unfold IsDigit; decide
  ends := by unfold IsDigit; decide
  dash := by simp

example : atoi demoNum 0x1000 = .ok (-12) := by
  rw [C43_atoi demo_num (by decide)]
  decide

/-- C43: from ten digits on the code always overflows an `int` (its multiplier, at the latest), even
for numbers that fit. -/
theorem C43_atoi_overflow {m : Mem} {p : Addr} {k : Nat} {ds : Name} {c : UInt8}
    (h : Numeral m p k ds c) (hl : 10 ≤ ds.length) (hs : ds.length < 2 ^ 31) :
    atoi m p = .error .intOverflow := by
  unfold atoi
  rw [h.neg]
  simp only
  rw [atoiLen_spec h.tail h.digits h.ends ds.length (2 ^ 31) 0 hs (Nat.zero_add _)]
  simp only
  have hv := atoiVal_overflow (bytes_append h.tail).1 9 ds.length 0 0 rfl (by omega) (le_refl _)
  rw [show ((1 : Int)) = ((10 ^ 0 : Nat) : Int) from rfl, hv]

theorem demo_ten : Numeral demoNum 0x2000 0 [49, 48, 48, 48, 48, 48, 48, 48, 48, 48] 0 where
  bytes := ⟨by decide, by decide, by decide, by decide, by decide, by decide, by decide, by decide,
    by decide, by decide, by decide, trivial⟩
  digits := by unfold IsDigit; decide
  ends := by unfold IsDigit; decide
  dash := by simp

/-- 1000000000 fits an `int`, but parsing it overflows. -/
example : decimal [49, 48, 48, 48, 48, 48, 48, 48, 48, 48] < 2 ^ 31 ∧
    atoi demoNum 0x2000 = .error .intOverflow :=
  ⟨by decide, C43_atoi_overflow demo_ten (by decide) (by decide)⟩

/-- C43: where `int` arithmetic wraps around, the result is the value modulo 2^32 for any number of
digits. -/
theorem C43_atoi_wrap {m : Mem} {p : Addr} {k : Nat} {ds : Name} {c : UInt8}
    (h : Numeral m p k ds c) (hs : ds.length < 2 ^ 31) :
    atoiWrap m p = .ok (BitVec.ofInt 32 ((-1) ^ k * (decimal ds : Int))) := by
  unfold atoiWrap
  rw [h.neg]
  simp only
  rw [atoiLen_spec h.tail h.digits h.ends ds.length (2 ^ 31) 0 hs (Nat.zero_add _)]
  simp only
  have hv := atoiValWrap_spec (bytes_append h.tail).1 h.digits ds.length 0 (Nat.add_zero _)
  rw [List.drop_length] at hv
  rw [show (0 : BitVec 32) = BitVec.ofNat 32 (decimal []) from rfl,
    show (1 : BitVec 32) = BitVec.ofNat 32 (10 ^ 0) from rfl, hv]
  simp only
  rw [BitVec.ofInt_mul, BitVec.ofInt_natCast, BitVec.mul_comm]

example : atoiWrap demoNum 0x2000 = .ok 1000000000#32 := by
  rw [C43_atoi_wrap demo_ten (by decide)]
  decide

/-! ### C47 -/

/-- C47: `gotcha_memcpy` copies exactly, when all bytes are mapped and no byte of the source is
overwritten before it is read (so in particular for ranges that do not overlap, and for overlapping
ranges moved down). -/
theorem C47_memcpy {m : Mem} {dest src : Addr} {n : BitVec 64}
    (hs : ∀ i < n.toNat, m (src + BitVec.ofNat 64 i) ≠ none)
    (hd : ∀ i < n.toNat, m (dest + BitVec.ofNat 64 i) ≠ none)
    (hdis : ∀ i j, i < j → j < n.toNat → dest + BitVec.ofNat 64 i ≠ src + BitVec.ofNat 64 j) :
    ∃ m', memcpy m dest src n = .ok m' ∧
      (∀ i < n.toNat, m' (dest + BitVec.ofNat 64 i) = m (src + BitVec.ofNat 64 i)) ∧
      (∀ a, (∀ i < n.toNat, a ≠ dest + BitVec.ofNat 64 i) → m' a = m a) := by
  obtain ⟨m', h1, h2, h3⟩ := memcpyLoop_spec (dest := dest) (src := src) n.toNat 0 m
    (by have := n.isLt; omega)
    (fun j _ hj => hs j (by omega)) (fun j _ hj => hd j (by omega))
    (fun j k _ hjk hk => hdis j k hjk (by omega))
  refine ⟨m', h1, fun i hi => h2 i (Nat.zero_le _) (by omega), ?_⟩
  intro a ha
  exact h3 a (fun j _ hj => ha j (by omega))

/-- C47: it faults as soon as one of the bytes is not mapped. -/
theorem C47_memcpy_fault {m : Mem} {dest src : Addr} {n : BitVec 64} {i : Nat} (hi : i < n.toNat)
    (h : m (src + BitVec.ofNat 64 i) = none ∨ m (dest + BitVec.ofNat 64 i) = none) :
    memcpy m dest src n = .error .outOfBounds :=
  memcpyLoop_fault n.toNat 0 m i (Nat.zero_le _) (by omega) h

example : ∃ m', memcpy demo 0x2000 0x1000 3 = .ok m' ∧ CStr m' 0x2000 [97, 98] := by
  obtain ⟨m', h1, h2, _⟩ := C47_memcpy (m := demo) (dest := 0x2000) (src := 0x1000) (n := 3)
    (by intro i hi; have : i < 3 := hi; interval_cases i <;> decide)
    (by intro i hi; have : i < 3 := hi; interval_cases i <;> decide)
    (by intro i j hij hj; have : j < 3 := hj; interval_cases j <;> interval_cases i <;> decide)
  refine ⟨m', h1, by decide, ?_, by decide, ?_, ?_⟩
  · exact (h2 0 (by decide)).trans (by decide)
  · exact (h2 1 (by decide)).trans (by decide)
  · exact (h2 2 (by decide)).trans (by decide)

/-- C47: `gotcha_memset` fills exactly `n` bytes with the low byte of `c`. -/
theorem C47_memset {m : Mem} {s : Addr} {c : BitVec 32} {n : BitVec 64}
    (hd : ∀ i < n.toNat, m (s + BitVec.ofNat 64 i) ≠ none) :
    ∃ m', memset m s c n = .ok m' ∧
      (∀ i < n.toNat, ∃ b, m' (s + BitVec.ofNat 64 i) = some b ∧ b.toNat = c.toNat % 256) ∧
      (∀ a, (∀ i < n.toNat, a ≠ s + BitVec.ofNat 64 i) → m' a = m a) := by
  obtain ⟨m', h1, h2, h3⟩ := memsetLoop_spec (s := s) (b := UInt8.ofNat (c.toNat % 256)) n.toNat 0 m
    (by have := n.isLt; omega) (fun j _ hj => hd j (by omega))
  refine ⟨m', h1, fun i hi => ⟨_, h2 i (Nat.zero_le _) (by omega), ?_⟩, ?_⟩
  · rw [UInt8.toNat_ofNat']
    omega
  · intro a ha
    exact h3 a (fun j _ hj => ha j (by omega))

example : ∃ m', memset demo 0x2000 0x158 3 = .ok m' ∧ m' 0x2001 = some 0x58 ∧ m' 0x2003 = some 0 := by
  obtain ⟨m', h1, h2, h3⟩ := C47_memset (m := demo) (s := 0x2000) (c := 0x158) (n := 3)
    (by intro i hi; have : i < 3 := hi; interval_cases i <;> decide)
  refine ⟨m', h1, ?_, ?_⟩
  · obtain ⟨b, hb, hb'⟩ := h2 1 (by decide)
    have : b = 0x58 := UInt8.toNat_inj.mp (hb'.trans (by decide))
    rw [← this]; exact hb
  · refine (h3 0x2003 ?_).trans (by decide)
    intro i hi
    have : i < 3 := hi
    interval_cases i <;> decide

/-! ### C48 -/

/-- C48: `gotcha_strncat` appends the first `n` characters of the source and a terminator, provided
all `n` bytes of the source are readable and there is room for `n + 1` bytes.  The last two lines say
which bytes it touches: it always copies `n` bytes. -/
theorem C48_strncat {m : Mem} {dest src : Addr} {d s : Name} {n : BitVec 64}
    (hd : CStr m dest d) (hs : CStr m src s) (hfit : d.length + n.toNat < 2 ^ 64)
    (hroom : ∀ i ≤ n.toNat, m (dest + BitVec.ofNat 64 (d.length + i)) ≠ none)
    (hread : ∀ i < n.toNat, m (src + BitVec.ofNat 64 i) ≠ none)
    (hdis : ∀ i ≤ d.length + n.toNat, ∀ j ≤ n.toNat,
      dest + BitVec.ofNat 64 i ≠ src + BitVec.ofNat 64 j) :
    ∃ m', strncat m dest src n = .ok m' ∧ CStr m' dest (d ++ s.take n.toNat) ∧
      (∀ i < n.toNat, m' (dest + BitVec.ofNat 64 (d.length + i)) = m (src + BitVec.ofNat 64 i)) ∧
      (∀ a, (∀ i ≤ n.toNat, a ≠ dest + BitVec.ofNat 64 (d.length + i)) → m' a = m a) := by
  have hoff : ∀ i, off (off dest d.length) i = off dest (d.length + i) := fun i => off_add ..
  -- the position of the terminator
  have hstop : Nat.min s.length n.toNat ≤ n.toNat := Nat.min_le_right _ _
  generalize hst : Nat.min s.length n.toNat = stop at hstop
  have hmapT : m (off (off dest d.length) stop) ≠ none := by rw [hoff]; exact hroom stop hstop
  have hmap : ∀ a, m a ≠ none → upd m (off (off dest d.length) stop) (some 0) a ≠ none := by
    intro a ha
    unfold upd
    split
    · simp
    · exact ha
  have hsrc : ∀ j ≤ n.toNat, upd m (off (off dest d.length) stop) (some 0) (off src j) =
      m (off src j) := by
    intro j hj
    have : off src j ≠ off (off dest d.length) stop := by
      rw [hoff]
      exact Ne.symm (hdis _ (by omega) j hj)
    simp [upd, this]
  obtain ⟨m', h1, h2, h3⟩ := C47_memcpy (m := upd m (off (off dest d.length) stop) (some 0))
    (dest := off dest d.length) (src := src) (n := n)
    (fun i hi => hmap _ (hread i hi))
    (fun i hi => hmap _ (by
      show m (off (off dest d.length) i) ≠ none
      rw [hoff]; exact hroom i (by omega)))
    (fun i j hij hj => by
      show off (off dest d.length) i ≠ off src j
      rw [hoff]; exact hdis _ (by omega) j (by omega))
  have hcopy : ∀ i < n.toNat, m' (off dest (d.length + i)) = m (off src i) := by
    intro i hi
    have := h2 i hi
    rw [← hoff]
    exact this.trans (hsrc i (by omega))
  have hframe : ∀ a, (∀ i ≤ n.toNat, a ≠ off dest (d.length + i)) → m' a = m a := by
    intro a ha
    rw [h3 a (fun i hi => by
      show a ≠ off (off dest d.length) i
      rw [hoff]; exact ha i (by omega))]
    have : a ≠ off (off dest d.length) stop := by rw [hoff]; exact ha stop hstop
    simp [upd, this]
  have hlen : (s.take n.toNat).length = stop := by
    rw [List.length_take, ← hst, Nat.min_comm]
  refine ⟨m', ?_, ?_, hcopy, hframe⟩
  · unfold strncat
    rw [strlen_spec hd]
    simp only
    rw [C41_strnlen hs n, hst]
    simp only
    rw [store_ok hmapT]
    exact h1
  · apply cstr_of
    · intro i hi
      rw [List.length_append, hlen] at hi
      by_cases hid : i < d.length
      · rw [List.getElem_append_left hid]
        rw [hframe (off dest i) (fun j hj he => by
          have := off_inj (by omega) (by omega) he
          omega)]
        exact hd.char i hid
      · rw [List.getElem_append_right (by omega), List.getElem_take]
        have hsl : i - d.length < s.length := by
          have : stop ≤ s.length := by rw [← hst]; exact Nat.min_le_left _ _
          omega
        have := hcopy (i - d.length) (by omega)
        rw [show d.length + (i - d.length) = i by omega] at this
        rw [this]
        exact hs.char _ hsl
    · rw [List.length_append, hlen]
      by_cases hlt : s.length < n.toNat
      · have : stop = s.length := by rw [← hst]; exact Nat.min_eq_left (by omega)
        rw [this, hcopy _ hlt]
        exact hs.nul
      · have : stop = n.toNat := by rw [← hst]; exact Nat.min_eq_right (by omega)
        rw [h3 (off dest (d.length + stop)) (fun i hi he => by
          have he' : off dest (d.length + stop) = off dest (d.length + i) := by
            rw [← hoff i]; exact he
          have := off_inj (by omega) (by omega) he'
          omega)]
        rw [hoff]
        simp [upd]

/-- "a" with nine bytes of room, and "bc" followed by other data. -/
def demoCat : Mem :=
  both (at_ 0x1000 [97, 0, 1, 1, 1, 1, 1, 1, 1, 1]) (at_ 0x2000 [98, 99, 0, 100, 101, 102])

theorem demo_cat_d : CStr demoCat 0x1000 [97] := by
  refine ⟨by decide, by decide, ?_⟩
  show demoCat _ = some 0
  decide
theorem demo_cat_s : CStr demoCat 0x2000 [98, 99] := by
  refine ⟨by decide, by decide, by decide, by decide, ?_⟩
  show demoCat _ = some 0
  decide

/-- C48: the bytes after the terminator are overwritten too: appending "bc" with n = 5 changes the
byte after the terminator, which standard `strncat` must not touch. -/
theorem C48_overwrite_refuted : ∃ (m m' : Mem) (dest src : Addr) (d s : Name) (n : BitVec 64),
    CStr m dest d ∧ CStr m src s ∧ strncat m dest src n = .ok m' ∧
    ∃ i > d.length + s.length, m (dest + BitVec.ofNat 64 i) ≠ none ∧
      m' (dest + BitVec.ofNat 64 i) ≠ m (dest + BitVec.ofNat 64 i) := by
  obtain ⟨m', h1, _, h3, _⟩ := C48_strncat (n := 5) demo_cat_d demo_cat_s (by decide)
    (by intro i hi; have : i ≤ 5 := hi; interval_cases i <;> decide)
    (by intro i hi; have : i < 5 := hi; interval_cases i <;> decide)
    (by
      intro i hi j hj
      have : i ≤ 6 := hi
      have : j ≤ 5 := hj
      interval_cases i <;> interval_cases j <;> decide)
  refine ⟨demoCat, m', _, _, _, _, 5, demo_cat_d, demo_cat_s, h1, 4, by decide, by decide, ?_⟩
  have := h3 3 (by decide)
  intro he
  have h := this.symm.trans he
  exact absurd h (by decide)

/-- C48: and the source is read past its terminator: if any of the `n` bytes is not mapped, the call
faults although the whole source string is readable. -/
theorem C48_overread_refuted {m : Mem} {dest src : Addr} {d s : Name} {n : BitVec 64}
    (hd : CStr m dest d) (hs : CStr m src s) {i : Nat} (hi : i < n.toNat)
    (hun : m (src + BitVec.ofNat 64 i) = none) :
    strncat m dest src n = .error .outOfBounds := by
  unfold strncat
  rw [strlen_spec hd]
  simp only
  rw [C41_strnlen hs n]
  simp only
  cases hT : m (off (off dest d.length) (Nat.min s.length n.toNat)) with
  | none => rw [store_none hT]
  | some b =>
    rw [store_ok (by simp [hT])]
    apply C47_memcpy_fault hi
    left
    unfold upd
    split
    · next he => rw [he] at hun; rw [hT] at hun; cases hun
    · exact hun

/-- C48: if any of the `n` bytes after the destination string is not mapped the call faults, even if
the concatenation fits. -/
theorem C48_overrun_refuted {m : Mem} {dest src : Addr} {d s : Name} {n : BitVec 64}
    (hd : CStr m dest d) (hs : CStr m src s) {i : Nat} (hi : i < n.toNat)
    (hun : m (dest + BitVec.ofNat 64 (d.length + i)) = none) :
    strncat m dest src n = .error .outOfBounds := by
  unfold strncat
  rw [strlen_spec hd]
  simp only
  rw [C41_strnlen hs n]
  simp only
  cases hT : m (off (off dest d.length) (Nat.min s.length n.toNat)) with
  | none => rw [store_none hT]
  | some b =>
    rw [store_ok (by simp [hT])]
    apply C47_memcpy_fault hi
    right
    have e : off (off dest d.length) i = dest + BitVec.ofNat 64 (d.length + i) := off_add ..
    unfold upd
    split
    · next he =>
      have he' : off (off dest d.length) i = off (off dest d.length) (Nat.min s.length n.toNat) := he
      rw [← he', e] at hT; rw [hT] at hun; cases hun
    · exact (congrArg m e).trans hun

example : strncat demoCat 0x1000 0x2000 7 = .error .outOfBounds :=
  C48_overread_refuted demo_cat_d demo_cat_s (i := 6) (by decide) (by decide)

end Gotcha.LibC
