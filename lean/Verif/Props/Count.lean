import Verif.Model.Count
import Verif.Spec.Count
import Verif.Proof.Users
import Verif.Demo.Bad
/-
C97: gotcha_wrap for every value of num_actions.
-/
namespace Gotcha
open Spec

theorem leastMultiple_up {k i : Nat} (hk : 0 < k) :
    LeastMultiple k i (if i % k ≠ 0 then i + (k - i % k) else i) := by
  have hlt : i % k < k := Nat.mod_lt _ hk
  have hdm : k * (i / k) + i % k = i := Nat.div_add_mod _ _
  split
  · refine ⟨⟨i / k + 1, by rw [Nat.mul_add]; omega⟩, by omega, ?_⟩
    rintro m ⟨c, rfl⟩ hc
    have : i / k < c := by
      by_contra hn
      have := Nat.mul_le_mul_left k (Nat.le_of_not_lt hn)
      omega
    have := Nat.mul_le_mul_left k (Nat.succ_le_of_lt this)
    rw [Nat.succ_eq_add_one, Nat.mul_add] at this
    omega
  · rename_i hz
    exact ⟨Nat.dvd_of_mod_eq_zero (by omega), le_refl _, fun m _ h => h⟩

theorem tableSize_word {page i : Nat} (hp : 48 ≤ page) (hp2 : page < 2 ^ 31) (hi : i < 2 ^ 31) :
    ∃ w, Count.tableSize (BitVec.ofNat 64 page) (BitVec.ofNat 64 i) = .ok w ∧
      w.toNat = (if i % (page / 48) ≠ 0 then i + (page / 48 - i % (page / 48)) else i) ∧
      w.toNat < 2 ^ 32 := by
  have hpp : (BitVec.ofNat 64 page / 48).toNat = page / 48 := by
    rw [BitVec.toNat_udiv, BitVec.toNat_ofNat, Nat.mod_eq_of_lt (by omega)]
    rfl
  have hq : 0 < page / 48 := by omega
  have hq2 : page / 48 < 2 ^ 31 := by omega
  have hi' : i % 2 ^ 64 = i := Nat.mod_eq_of_lt (by omega)
  have hm : (BitVec.ofNat 64 i % (BitVec.ofNat 64 page / 48)).toNat = i % (page / 48) := by
    rw [BitVec.toNat_umod, hpp, BitVec.toNat_ofNat, hi']
  have hlt : i % (page / 48) < page / 48 := Nat.mod_lt _ hq
  have h0 : BitVec.ofNat 64 page / 48 ≠ 0 := by
    intro h
    rw [h] at hpp
    change 0 = _ at hpp
    omega
  unfold Count.tableSize
  rw [if_neg h0]
  generalize hk : page / 48 = k at *
  by_cases hz : i % k = 0
  · have : BitVec.ofNat 64 i % (BitVec.ofNat 64 page / 48) = 0 := by
      apply BitVec.eq_of_toNat_eq; rw [hm, hz]; rfl
    rw [if_neg (fun h => h this), if_neg (fun h => h hz)]
    refine ⟨_, rfl, ?_⟩
    rw [BitVec.toNat_ofNat, hi']
    omega
  · have : BitVec.ofNat 64 i % (BitVec.ofNat 64 page / 48) ≠ 0 := by
      intro h; rw [h] at hm; exact hz hm.symm
    have hv : (BitVec.ofNat 64 i + (BitVec.ofNat 64 page / 48 -
        BitVec.ofNat 64 i % (BitVec.ofNat 64 page / 48))).toNat = i + (k - i % k) := by
      rw [BitVec.toNat_add, BitVec.toNat_sub, hm, hpp, BitVec.toNat_ofNat]
      omega
    rw [if_pos this, if_pos hz]
    refine ⟨_, rfl, hv, ?_⟩
    rw [hv]; omega

/-- C97: for up to 2^30 - 1 bindings the arithmetic does not wrap around: the table gets the least number of
entries that fills whole pages' worth of entries and is at least twice the number of bindings, as in the
unbounded model, and the number of bytes asked for is 48 per entry. -/
theorem C97_size {page n : Nat} (hp : 48 ≤ page) (hp2 : page < 2 ^ 31) (hn : n < 2 ^ 30) :
    ∃ w, Count.tableSize (BitVec.ofNat 64 page) (BitVec.ofInt 64 ((n : Int) * 2)) = .ok w ∧
      LeastMultiple (page / 48) (2 * n) w.toNat ∧
      (Count.tableBytes w).toNat = 48 * w.toNat ∧
      ∃ t : HTable Name BId, HTable.create page (2 * n) = .ok t ∧ t.slots.length = w.toNat := by
  have e : BitVec.ofInt 64 ((n : Int) * 2) = BitVec.ofNat 64 (2 * n) := by
    rw [← BitVec.ofInt_natCast]; congr 1; push_cast; omega
  obtain ⟨w, h1, h2, h3⟩ := tableSize_word (i := 2 * n) hp hp2 (by omega)
  refine ⟨w, e ▸ h1, h2 ▸ leastMultiple_up (by omega), ?_, ?_⟩
  · unfold Count.tableBytes
    rw [BitVec.toNat_mul]
    show w.toNat * 48 % 2 ^ 64 = _
    omega
  · have hq : ¬ page / HTable.entrySize = 0 := by
      show ¬ page / 48 = 0
      omega
    unfold HTable.create
    rw [if_neg hq]
    refine ⟨_, rfl, ?_⟩
    unfold HTable.blank
    rw [List.length_replicate, h2]
    rfl

/-- C97: a count of 0 to 2^30 - 1 has the effect of `gotcha_wrap` in the unbounded model on that many
entries of the table, when the allocator has the memory. -/
theorem C97_exact {env : Env} {malloc : BitVec 64 → Bool} {mem : List UBinding} {n : Nat}
    {tool : Option Name} {s : State} (hp : 48 ≤ env.page) (hp2 : env.page < 2 ^ 31)
    (hn : n ≤ mem.length) (hn2 : n < 2 ^ 30) (hm : HasUpTo malloc (2 ^ 38)) :
    Count.gotchaWrap env malloc mem n tool s =
      (gotchaWrap env (mem.take n) tool s).map (fun x => (x.1, some x.2)) := by
  obtain ⟨w, h1, ⟨hd, hle, hmin⟩, h3, _⟩ := C97_size hp hp2 hn2
  have hw : w.toNat ≤ 2 ^ 31 + 2 ^ 31 := by
    have h4 := leastMultiple_up (k := env.page / 48) (i := 2 * n) (by omega)
    have h5 := hmin _ h4.1 h4.2.1
    have : (if 2 * n % (env.page / 48) ≠ 0 then
        2 * n + (env.page / 48 - 2 * n % (env.page / 48)) else 2 * n) ≤ 2 * n + env.page / 48 := by
      split <;> omega
    omega
  have a1 : malloc 88 = true := hm _ (by decide)
  have a2 : malloc (32 * BitVec.ofInt 64 (n : Int)) = true := by
    apply hm
    rw [BitVec.ofInt_natCast, BitVec.toNat_mul, BitVec.toNat_ofNat]
    show 32 * (n % 2 ^ 64) % 2 ^ 64 ≤ _
    omega
  have a3 : malloc (Count.tableBytes w) = true := by
    apply hm
    rw [h3]; omega
  have a4 : LibC.int32 ((n : Int) * 2) = .ok ((n : Int) * 2) := by
    unfold LibC.int32
    rw [if_pos (by omega)]
  have hadd : ∀ tid table s', Count.addBindingToTool env malloc n tid table s' =
      .ok (addBindings tid table s', true) := by
    intro tid table s'
    unfold Count.addBindingToTool
    rw [if_neg (by simp only [a1]; decide), if_neg (by simp only [a2]; simp), a4]
    simp only [h1, a3]
  have hnot : ¬ ((mem.length : Int) < (n : Int)) := by omega
  unfold Count.gotchaWrap gotchaWrap wrapBody wrapCore
  simp only [hnot, if_false, Int.toNat_natCast]
  cases hi : gotchaInit env s with
  | error e => rfl
  | ok s1 =>
    show (Tools.getOrCreate _ _ >>= _) = Except.map _ (Tools.getOrCreate _ _ >>= _)
    cases hg : Tools.getOrCreate ((mem.take n).foldl (fun s u => s.setHandle u.handle none) s1).tools
      (tool.getD (nm "[UNSPECIFIED]")) with
    | error e => rfl
    | ok x =>
      obtain ⟨ts, tid⟩ := x
      show (Count.addBindingToTool _ _ _ _ _ _ >>= _) = Except.map _ (processBindings _ _ _ _ _ _ _ >>= _)
      rw [hadd]
      show (processBindings _ _ _ _ _ _ _ >>= _) = _
      cases hpb : processBindings env (onMainReal env) (mem.take n).length (List.range'
        ({ (mem.take n).foldl (fun s u => s.setHandle u.handle none) s1 with
          tools := ts, gen := ((mem.take n).foldl (fun s u => s.setHandle u.handle none) s1).gen + 1 } :
          State).binds.length (mem.take n).length) (addBindings tid (mem.take n)
        { (mem.take n).foldl (fun s u => s.setHandle u.handle none) s1 with
          tools := ts, gen := ((mem.take n).foldl (fun s u => s.setHandle u.handle none) s1).gen + 1 })
          none 0 with
      | error e => rfl
      | ok y =>
        obtain ⟨s2, nb, nf⟩ := y
        cases nb with
        | none => rfl
        | some t =>
          show (State.updateAll _ _ _ >>= _) = Except.map _ (State.updateAll _ _ _ >>= _)
          cases State.updateAll env t s2 <;> rfl

/-- C97: a call for an empty table registers the tool, moves the generation counter and returns success. -/
theorem C97_empty {env : Env} {tool : Option Name} {s s' : State} {r : RetCode} (hi : s.inited = true)
    (h : gotchaWrap env [] tool s = .ok (s', r)) : r = .success ∧ OnlyTool s s' := by
  unfold gotchaWrap gotchaInit at h
  simp only [hi, if_true] at h
  change wrapBody env [] tool s = _ at h
  unfold wrapBody wrapCore at h
  obtain ⟨x, hx, h⟩ := ebind h
  obtain ⟨ts, tid⟩ := x
  cases h
  exact ⟨rfl, rfl⟩

/-- C97: on a machine with pages of 4096 bytes a negative count, down to -2^30, has the effect of an empty
table, but `gotcha_wrap` returns `GOTCHA_INTERNAL`: the size of the hash table asked for is out of reach. -/
theorem C97_negative {env : Env} {malloc : BitVec 64 → Bool} {mem : List UBinding} {n : Int}
    {tool : Option Name} {s : State} (hp : env.page = 4096) (hn : n < 0) (hn2 : -2 ^ 30 ≤ n)
    (h88 : malloc 88 = true) (hm : Finite malloc) :
    Count.gotchaWrap env malloc mem n tool s =
      (gotchaWrap env [] tool s).map (fun x => (x.1, none)) := by
  obtain ⟨k, rfl⟩ : ∃ k : Nat, n = -(k : Int) := ⟨n.natAbs, by omega⟩
  have hk : 0 < k := by omega
  have hk2 : k ≤ 2 ^ 30 := by omega
  have hw : (BitVec.ofInt 64 (-(k : Int) * 2)).toNat = 2 ^ 64 - 2 * k := by
    rw [BitVec.toNat_ofInt]; omega
  have a4 : LibC.int32 (-(k : Int) * 2) = .ok (-(k : Int) * 2) := by
    unfold LibC.int32
    rw [if_pos (by omega)]
  have hsz : ∃ w, Count.tableSize (BitVec.ofNat 64 4096) (BitVec.ofInt 64 (-(k : Int) * 2)) = .ok w ∧
      malloc (Count.tableBytes w) = false := by
    generalize BitVec.ofInt 64 (-(k : Int) * 2) = v at *
    have h85 : BitVec.ofNat 64 4096 / 48 = 85#64 := by decide
    have hr : (v % 85#64).toNat = (2 ^ 64 - 2 * k) % 85 := by
      rw [BitVec.toNat_umod, hw]; rfl
    unfold Count.tableSize
    simp only [h85]
    have h0 : (85#64 : BitVec 64) ≠ 0 := by decide
    simp only [h0, if_false]
    by_cases hz : v % 85#64 = 0
    · refine ⟨v, by simp [hz], hm _ ?_⟩
      unfold Count.tableBytes
      rw [BitVec.toNat_mul, hw]
      show 2 ^ 63 ≤ (2 ^ 64 - 2 * k) * 48 % 2 ^ 64
      have : (2 ^ 64 - 2 * k) * 48 = 2 ^ 64 * 47 + (2 ^ 64 - 96 * k) := by omega
      rw [this, Nat.mul_add_mod, Nat.mod_eq_of_lt (by omega)]
      omega
    · refine ⟨_, by simp only [ne_eq, hz, not_false_eq_true, if_true]; rfl, hm _ ?_⟩
      unfold Count.tableBytes
      have hr0 : (2 ^ 64 - 2 * k) % 85 < 85 := Nat.mod_lt _ (by omega)
      have hsub : (85#64 - v % 85#64).toNat = 85 - (2 ^ 64 - 2 * k) % 85 := by
        rw [BitVec.toNat_sub, hr]
        show (2 ^ 64 - (2 ^ 64 - 2 * k) % 85 + 85) % 2 ^ 64 = _
        omega
      have hdm := Nat.div_add_mod (2 ^ 64 - 2 * k) 85
      obtain ⟨t, ht, ht0, ht1⟩ : ∃ t, (v + (85#64 - v % 85#64)).toNat = 2 ^ 64 - t ∧ 0 < t ∧ t ≤ 2 * k := by
        refine ⟨2 * k + (2 ^ 64 - 2 * k) % 85 - 85, ?_, by omega, by omega⟩
        rw [BitVec.toNat_add, hsub, hw]
        omega
      rw [BitVec.toNat_mul, ht]
      show 2 ^ 63 ≤ (2 ^ 64 - t) * 48 % 2 ^ 64
      have : (2 ^ 64 - t) * 48 = 2 ^ 64 * 47 + (2 ^ 64 - 48 * t) := by omega
      rw [this, Nat.mul_add_mod, Nat.mod_eq_of_lt (by omega)]
      omega
  obtain ⟨w, h1, h2⟩ := hsz
  have hadd : ∀ tid table s', Count.addBindingToTool env malloc (-(k : Int)) tid table s' =
      .ok (addBindings tid table s', false) := by
    intro tid table s'
    unfold Count.addBindingToTool
    rw [hp]
    have : ¬ 0 < -(k : Int) := by omega
    rw [if_neg (by simp only [h88]; decide), if_neg (fun h => this h.2), a4]
    simp only [h1, h2]
  have hnot : ¬ ((mem.length : Int) < -(k : Int)) := by omega
  have hz : (-(k : Int)).toNat = 0 := by omega
  unfold Count.gotchaWrap gotchaWrap wrapBody wrapCore
  simp only [hnot, if_false, hz, List.take_zero]
  cases hi : gotchaInit env s with
  | error e => rfl
  | ok s1 =>
    show (Tools.getOrCreate s1.tools _ >>= _) = Except.map _ (Tools.getOrCreate s1.tools _ >>= _)
    cases hg : Tools.getOrCreate s1.tools (tool.getD (nm "[UNSPECIFIED]")) with
    | error e => rfl
    | ok x =>
      obtain ⟨ts, tid⟩ := x
      show (Count.addBindingToTool _ _ _ _ _ _ >>= _) = _
      rw [hadd]
      rfl

/-- C97: outside of that range the product `user_binding_size * 2` overflows. -/
theorem C97_overflow {env : Env} {malloc : BitVec 64 → Bool} {mem : List UBinding} {n : Int}
    {tool : Option Name} {s s' : State} {r : RetCode} (hn : n ≤ mem.length)
    (hb : n < -2 ^ 30 ∨ 2 ^ 30 ≤ n) (hw : gotchaWrap env [] tool s = .ok (s', r))
    (hm : ∀ b, malloc b = true) :
    Count.gotchaWrap env malloc mem n tool s = .error .intOverflow := by
  have hnot : ¬ ((mem.length : Int) < n) := by omega
  have a4 : LibC.int32 (n * 2) = .error .intOverflow := by
    unfold LibC.int32
    rw [if_neg (by omega)]
  have hadd : ∀ tid table s', Count.addBindingToTool env malloc n tid table s' = .error .intOverflow := by
    intro tid table s'
    unfold Count.addBindingToTool
    simp [hm, a4]
  unfold Count.gotchaWrap
  unfold gotchaWrap wrapBody wrapCore at hw
  obtain ⟨s1, hi, hw⟩ := ebind hw
  obtain ⟨x, hg, _⟩ := ebind hw
  rw [hi]
  simp only [hnot, if_false]
  have ht : ∀ (l : List UBinding) (s : State),
      (l.foldl (fun s u => s.setHandle u.handle none) s).tools = s.tools := by
    intro l
    induction l with
    | nil => intro s; rfl
    | cons u us ih => intro s; rw [List.foldl_cons, ih]; rfl
  show (Tools.getOrCreate (List.foldl _ s1 _).tools _ >>= _) = _
  rw [ht, show s1.tools.getOrCreate _ = _ from hg]
  obtain ⟨ts, tid⟩ := x
  show (Count.addBindingToTool _ _ _ _ _ _ >>= _) = _
  rw [hadd]
  rfl

/-- C97: the claim that a negative count is always refused is false: with pages of 16 or 64 kB and a count
of -1 to -7 rounding up wraps around to a small table and `gotcha_wrap` reports success. -/
theorem C97_negative_refuted {env : Env} {malloc : BitVec 64 → Bool} {mem : List UBinding} {k : Nat}
    {tool : Option Name} {s : State} (hp : env.page = 16384 ∨ env.page = 65536) (hk : 1 ≤ k) (hk2 : k ≤ 7)
    (hm : HasUpTo malloc (2 ^ 38)) :
    Count.gotchaWrap env malloc mem (-(k : Int)) tool s =
      (gotchaWrap env [] tool s).map (fun x => (x.1, some x.2)) := by
  have a4 : LibC.int32 (-(k : Int) * 2) = .ok (-(k : Int) * 2) := by
    unfold LibC.int32
    rw [if_pos (by omega)]
  have hsz : ∃ w, Count.tableSize (BitVec.ofNat 64 env.page) (BitVec.ofInt 64 (-(k : Int) * 2)) = .ok w ∧
      (Count.tableBytes w).toNat ≤ 2 ^ 38 := by
    rcases hp with hp | hp <;> rw [hp] <;>
    · obtain rfl | rfl | rfl | rfl | rfl | rfl | rfl :
        k = 1 ∨ k = 2 ∨ k = 3 ∨ k = 4 ∨ k = 5 ∨ k = 6 ∨ k = 7 := by omega
      all_goals exact ⟨_, rfl, by decide⟩
  obtain ⟨w, h1, h2⟩ := hsz
  have h88 : malloc 88 = true := hm _ (by decide)
  have h2 := hm _ h2
  have hadd : ∀ tid table s', Count.addBindingToTool env malloc (-(k : Int)) tid table s' =
      .ok (addBindings tid table s', true) := by
    intro tid table s'
    unfold Count.addBindingToTool
    have : ¬ 0 < -(k : Int) := by omega
    rw [if_neg (by simp only [h88]; decide), if_neg (fun h => this h.2), a4]
    simp only [h1, h2]
  have hnot : ¬ ((mem.length : Int) < -(k : Int)) := by omega
  have hz : (-(k : Int)).toNat = 0 := by omega
  unfold Count.gotchaWrap gotchaWrap wrapBody wrapCore
  simp only [hnot, if_false, hz, List.take_zero]
  cases hi : gotchaInit env s with
  | error e => rfl
  | ok s1 =>
    show (Tools.getOrCreate s1.tools _ >>= _) = Except.map _ (Tools.getOrCreate s1.tools _ >>= _)
    cases hg : Tools.getOrCreate s1.tools (tool.getD (nm "[UNSPECIFIED]")) with
    | error e => rfl
    | ok x =>
      obtain ⟨ts, tid⟩ := x
      show (Count.addBindingToTool _ _ _ _ _ _ >>= _) = _
      rw [hadd]
      rfl

/-- An allocator with a terabyte to give. -/
def Demo.malloc (b : BitVec 64) : Bool := b.toNat < 2 ^ 40

example : HasUpTo Demo.malloc (2 ^ 38) ∧ Finite Demo.malloc := by
  constructor
  · intro b hb; simp [Demo.malloc]; omega
  · intro b hb; simp [Demo.malloc]; omega

example : Demo.env.page = 4096 := rfl

/-- In the demo process a table of two bindings, of which one is to be wrapped. -/
example : ∃ s os s', run Demo.env (Demo.ops.take 3) Demo.proc.start = .ok (s, os) ∧
    Count.gotchaWrap Demo.env Demo.malloc [⟨nm "bar", 0x510, 16⟩, ⟨nm "foo", 0x511, 17⟩] 1 (some Demo.A) s =
      .ok (s', some .success) ∧ s'.binds.length = s.binds.length + 1 := by
  have : Demo.after Demo.env (Demo.ops.take 3) Demo.proc.start (fun s =>
      match Count.gotchaWrap Demo.env Demo.malloc [⟨nm "bar", 0x510, 16⟩, ⟨nm "foo", 0x511, 17⟩] 1
          (some Demo.A) s with
      | .ok (s', some .success) => decide (s'.binds.length = s.binds.length + 1)
      | _ => false) = true := by decide +kernel
  obtain ⟨s, os, h1, h2⟩ := Demo.after_run this
  split at h2
  · rename_i s' hs
    exact ⟨s, os, s', h1, hs, by simpa using h2⟩
  · cases h2

/-- In the demo process a count of -1. -/
example : ∃ s os s', run Demo.env (Demo.ops.take 3) Demo.proc.start = .ok (s, os) ∧
    Count.gotchaWrap Demo.env Demo.malloc [] (-1) (some (nm "new")) s = .ok (s', none) ∧
    s'.gen = s.gen + 1 ∧ s'.tools.store.length = s.tools.store.length + 1 := by
  have : Demo.after Demo.env (Demo.ops.take 3) Demo.proc.start (fun s =>
      match Count.gotchaWrap Demo.env Demo.malloc [] (-1) (some (nm "new")) s with
      | .ok (s', none) => decide (s'.gen = s.gen + 1 ∧
          s'.tools.store.length = s.tools.store.length + 1)
      | _ => false) = true := by decide +kernel
  obtain ⟨s, os, h1, h2⟩ := Demo.after_run this
  split at h2
  · rename_i s' hs
    have h2 := of_decide_eq_true h2
    exact ⟨s, os, s', h1, hs, h2.1, h2.2⟩
  · cases h2

/-- The demo process on a machine with pages of 16 kB. -/
def Demo.env16k : Env := { Demo.env with page := 16384 }

/-- There a count of -1 succeeds. -/
example : ∃ s', Count.gotchaWrap Demo.env16k Demo.malloc [] (-1) (some (nm "new")) Demo.proc.start =
    .ok (s', some .success) := by
  have : (match Count.gotchaWrap Demo.env16k Demo.malloc [] (-1) (some (nm "new")) Demo.proc.start with
      | .ok (_, some .success) => true
      | _ => false) = true := by decide +kernel
  split at this
  · exact ⟨_, by assumption⟩
  · cases this

/-- Not vacuous: each case of C97, in the demo process. -/
example (s : State) : Count.gotchaWrap Demo.env Demo.malloc [⟨nm "bar", 0x510, 16⟩, ⟨nm "foo", 0x511, 17⟩] (1 : Nat)
    (some Demo.A) s = (gotchaWrap Demo.env [⟨nm "bar", 0x510, 16⟩] (some Demo.A) s).map (fun x => (x.1, some x.2)) :=
  C97_exact (n := 1) (by decide) (by decide) (by decide) (by decide) (by intro b hb; simp [Demo.malloc]; omega)

example (s : State) : Count.gotchaWrap Demo.env Demo.malloc [] (-1) (some Demo.A) s =
    (gotchaWrap Demo.env [] (some Demo.A) s).map (fun x => (x.1, none)) :=
  C97_negative rfl (by decide) (by decide) (by decide) (by intro b hb; simp [Demo.malloc]; omega)

example : ∃ s os s', run Demo.env (Demo.ops.take 3) Demo.proc.start = .ok (s, os) ∧ s.inited = true ∧
    gotchaWrap Demo.env [] (some (nm "new")) s = .ok (s', .success) ∧ OnlyTool s s' ∧
    Count.gotchaWrap Demo.env (fun _ => true) [] (-2 ^ 30 - 1) (some (nm "new")) s = .error .intOverflow := by
  have : Demo.after Demo.env (Demo.ops.take 3) Demo.proc.start (fun s => s.inited &&
      match gotchaWrap Demo.env [] (some (nm "new")) s with
      | .ok _ => true
      | .error _ => false) = true := by decide +kernel
  obtain ⟨s, os, h1, h2⟩ := Demo.after_run this
  rw [Bool.and_eq_true] at h2
  cases hw : gotchaWrap Demo.env [] (some (nm "new")) s with
  | error e => rw [hw] at h2; cases h2.2
  | ok x =>
    obtain ⟨s', r⟩ := x
    obtain ⟨rfl, ho⟩ := C97_empty h2.1 hw
    exact ⟨s, os, s', h1, h2.1, hw, ho, C97_overflow (by decide) (Or.inl (by decide)) hw (fun _ => rfl)⟩

end Gotcha
