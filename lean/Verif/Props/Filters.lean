import Verif.Spec.Filters
import Verif.Props.LibC
import Verif.Proof.History
/-
C111: the library filters.
-/
namespace Gotcha.Filters
open Gotcha.Spec.LibC Gotcha.Spec.Filters

theorem after_last (cs : List Call) (c : Call) : after (cs ++ [c]) = call (after cs) c := by
  simp [after]

/-- The memory, and the strings in it, of the examples: "" at 0x5000, "ab" at 0x1000, "a=bab" at 0x3000. -/
def demoMem : LibC.Mem := fun a => if a = 0x5000 then some 0 else LibC.demo a

theorem demo_keeps {s : Name} {p : Addr} (h : CStr LibC.demo p s) (hp : p.toNat + s.length < 0x5000) :
    CStr demoMem p s := by
  have hk : ∀ {q : Addr} {b}, LibC.demo q = some b → q.toNat < 0x5000 → demoMem q = some b := by
    intro q b hq hl
    unfold demoMem
    rw [if_neg (fun e => by subst e; exact absurd hl (by decide)), hq]
  induction s generalizing p with
  | nil => exact hk h (by simpa using hp)
  | cons c s ih =>
    simp only [List.length_cons] at hp
    refine ⟨h.1, hk h.2.1 (by omega), ih h.2.2 ?_⟩
    have : (p + 1).toNat = p.toNat + 1 := by
      rw [BitVec.toNat_add]
      simp
      omega
    omega

theorem demo_str_ab : CStr demoMem 0x1000 [97, 98] := demo_keeps LibC.demo_ab (by decide)
theorem demo_str_abab : CStr demoMem 0x3000 [97, 61, 98, 97, 98] := demo_keeps LibC.demo_abab (by decide)
theorem demo_str_empty : CStr demoMem 0x5000 [] := by show demoMem _ = some 0; decide

/-- C111.  The default build: what passes is decided by the client's last call and by memory at the time the
filter is consulted. -/
theorem C111_filters {strstr : LibC.Mem → Addr → Addr → Except Fault (Option Addr)} (hs : Strstr strstr)
    {m : LibC.Mem} {k : Link} {n : Name} (hk : CStr m k.name n) {cs : List Call} {b : Bool}
    (h : Lets true m k n cs b) : consult strstr m (after cs) k = .ok b := by
  cases h with
  | none => rfl
  | restore => rw [after_last]; rfl
  | last => rw [after_last]; rfl
  | custom => rw [after_last]; rfl
  | noName => rw [after_last]; rfl
  | @name cs p f _ hp hf hb =>
    rw [after_last]
    obtain ⟨r, h1, h2⟩ := hs m k.name p n f hk hf
    show (if p = 0 then _ else match strstr m k.name p with | .error f => _ | .ok r => _) = _
    rw [if_neg hp, h1]
    simp only [or_true, true_and] at hb
    show Except.ok r.isSome = _
    congr 1
    rw [Bool.eq_iff_iff, hb, ← h2]
    cases r <;> simp

/-- C111.  The build without libc: the same, except that an empty filter lets nothing pass. -/
theorem C111_filters_without_libc {m : LibC.Mem} {k : Link} {n : Name} (hk : CStr m k.name n)
    (hn : n.length < 2 ^ 31) {cs : List Call} {b : Bool} (h : Lets false m k n cs b)
    (hl : ∀ cs' p, cs = cs' ++ [.byName p] → ∀ f, CStr m p f → f.length < 2 ^ 31) :
    consult LibC.strstr m (after cs) k = .ok b := by
  cases h with
  | none => rfl
  | restore => rw [after_last]; rfl
  | last => rw [after_last]; rfl
  | custom => rw [after_last]; rfl
  | noName => rw [after_last]; rfl
  | @name cs p f _ hp hf hb =>
    rw [after_last]
    obtain ⟨r, h1, h2⟩ := LibC.C40_strstr_found hk hf hn (hl cs p rfl f hf)
    show (if p = 0 then _ else match LibC.strstr m k.name p with | .error f => _ | .ok r => _) = _
    rw [if_neg hp, h1]
    simp only [Bool.false_eq_true, or_false] at hb
    have he : (∃ i, OccursAt f n i) ↔ f <:+: n :=
      ⟨fun ⟨_, pre, post, e, _⟩ => ⟨pre, post, e.symm⟩, fun ⟨pre, post, e⟩ => ⟨_, pre, post, e.symm, rfl⟩⟩
    show Except.ok r.isSome = _
    congr 1
    rw [Bool.eq_iff_iff, hb, ← he, ← h2]
    cases r <;> simp

/-- C111: with that the filters of the model (C11 and all others on filters) are the filters of the code, as
long as the client leaves the string alone. -/
theorem C111_model_filters {strstr : LibC.Mem → Addr → Addr → Except Fault (Option Addr)} (hs : Strstr strstr)
    {m : LibC.Mem} {link : Lib → Bool → Link} (hlink : ∀ l b, (link l b).hasNext = b) {cs : List Call} {F : Filter}
    (h : Means m link cs F) (l : Lib) {n : Name} (hl : l.name = some n) (b : Bool) (hk : CStr m (link l b).name n) :
    consult strstr m (after cs) (link l b) = F.accepts l b := by
  cases h with
  | none => exact C111_filters hs hk .none
  | restore => exact C111_filters hs hk .restore
  | last => rw [C111_filters hs hk .last, hlink]; rfl
  | custom => exact C111_filters hs hk .custom
  | noName => exact C111_filters hs hk .noName
  | @name cs p f hp hf =>
    rw [C111_filters hs hk (.name (occursIn f n) hp hf (by simp [Spec.occursIn_iff]))]
    simp [Filter.accepts, hl]

/-- C111: both builds let the same objects pass unless the filter is the empty string. -/
theorem C111_builds_agree {strstr : LibC.Mem → Addr → Addr → Except Fault (Option Addr)} (hs : Strstr strstr)
    {m : LibC.Mem} {k : Link} {n : Name} (hk : CStr m k.name n) (hn : n.length < 2 ^ 31) {p : Addr} {f : Name}
    (hf : CStr m p f) (hl : f.length < 2 ^ 31) (cs : List Call) :
    consult strstr m (after (cs ++ [.byName p])) k = consult LibC.strstr m (after (cs ++ [.byName p])) k ↔
      p = 0 ∨ f ≠ [] := by
  by_cases hp : p = 0
  · subst hp
    simp only [true_or, iff_true]
    rw [after_last]
    rfl
  · have hlen : ∀ cs' q, cs ++ [Call.byName p] = cs' ++ [.byName q] → ∀ g, CStr m q g → g.length < 2 ^ 31 := by
      intro cs' q e g hg
      have := (List.append_inj' e rfl).2
      simp only [List.cons.injEq, Call.byName.injEq, and_true] at this
      subst this
      rw [← Spec.LibC.CStr.unique hf hg]
      exact hl
    rw [C111_filters hs hk (.name (decide (f <:+: n)) hp hf (by simp)),
      C111_filters_without_libc hk hn (.name (decide (f ≠ [] ∧ f <:+: n)) hp hf (by simp)) hlen]
    simp only [hp, false_or, Except.ok.injEq]
    by_cases he : f = []
    · subst he; simp
    · simp [he]

/-- There is a function as C says strstr is. -/
theorem strstr_exists : ∃ strstr, Strstr strstr := by
  classical
  refine ⟨fun m a b => .ok (if ∃ h n, CStr m a h ∧ CStr m b n ∧ n <:+: h then some a else none), ?_⟩
  intro m a b h n h1 h2
  refine ⟨_, rfl, ?_⟩
  split
  · rename_i hc
    obtain ⟨h', n', e1, e2, e3⟩ := hc
    rw [Spec.LibC.CStr.unique h1 e1, Spec.LibC.CStr.unique h2 e2]
    simp [e3]
  · rename_i hc
    simp only [ne_eq, not_true_eq_false, false_iff]
    exact fun e => hc ⟨h, n, h1, h2, e⟩

/-- Not vacuous: an object named "a=bab", filtered by "ab", which the client has set over another filter; both
builds, and the filter of the model. -/
example : ∃ strstr, Strstr strstr ∧
    consult strstr demoMem (after [.onlyLast, .byName 0x1000]) ⟨0x3000, true⟩ = .ok true ∧
    consult LibC.strstr demoMem (after [.onlyLast, .byName 0x1000]) ⟨0x3000, true⟩ = .ok true := by
  obtain ⟨strstr, hs⟩ := strstr_exists
  have h1 := C111_filters hs (k := ⟨0x3000, true⟩) demo_str_abab
    (Lets.name (cs := [.onlyLast]) true (by decide) demo_str_ab (by decide))
  refine ⟨strstr, hs, h1, ?_⟩
  exact ((C111_builds_agree hs (k := ⟨0x3000, true⟩) demo_str_abab (by decide) demo_str_ab (by decide)
    [.onlyLast]).2 (.inr (by simp))).symm.trans h1

example : Means demoMem (fun _ b => ⟨0x3000, b⟩) [.onlyLast, .byName 0x1000] (.byName (some [97, 98])) :=
  .name (cs := [.onlyLast]) (by decide) demo_str_ab

/-- C111, refutation: the builds agree for all filters.  They do not for the empty string. -/
theorem C111_empty_filter_refuted :
    ¬ ∀ strstr, Strstr strstr → ∀ (m : LibC.Mem) (k : Link) (n : Name), CStr m k.name n → n.length < 2 ^ 31 →
      ∀ p f, CStr m p f → p ≠ 0 → f.length < 2 ^ 31 →
        consult strstr m (after [.byName p]) k = consult LibC.strstr m (after [.byName p]) k := by
  intro h
  obtain ⟨strstr, hs⟩ := strstr_exists
  have := h strstr hs demoMem ⟨0x3000, true⟩ _ demo_str_abab (by decide) 0x5000 [] demo_str_empty (by decide)
    (by decide)
  exact absurd ((C111_builds_agree hs (k := ⟨0x3000, true⟩) demo_str_abab (by decide) demo_str_empty (by decide)
    []).1 this) (by simp)

/-- C111, refutation: gotcha_filter_libraries_by_name keeps the name it is given.  It keeps the pointer: if the
client puts another string there (or frees the memory), then objects pass that do not match the name given, and
others do not pass that do. -/
theorem C111_name_is_kept_refuted :
    ¬ ∀ strstr, Strstr strstr → ∀ (m m' : LibC.Mem) (p : Addr) (f : Name), p ≠ 0 → CStr m p f →
      ∀ (k : Link) (n : Name), CStr m k.name n → CStr m' k.name n →
        (consult strstr m' (after [.byName p]) k = .ok true ↔
          consult strstr m (after [.byName p]) k = .ok true) := by
  intro h
  obtain ⟨strstr, hs⟩ := strstr_exists
  let m' : LibC.Mem := fun a => if a = 0x1001 then some 99 else demoMem a
  have h1 : CStr m' 0x1000 [97, 99] := by
    refine ⟨by decide, by decide, by decide, by decide, ?_⟩
    show m' _ = some 0
    decide
  have h2 : CStr m' 0x3000 [97, 61, 98, 97, 98] := by
    refine ⟨by decide, by decide, by decide, by decide, by decide, by decide, by decide, by decide,
      by decide, by decide, ?_⟩
    show m' _ = some 0
    decide
  have := (h strstr hs demoMem m' 0x1000 [97, 98] (by decide) demo_str_ab ⟨0x3000, true⟩ _ demo_str_abab h2).2
    (C111_filters hs demo_str_abab (Lets.name (cs := []) true (by decide) demo_str_ab (by decide)))
  have h3 := C111_filters hs (k := ⟨0x3000, true⟩) h2 (Lets.name (cs := []) false (by decide) h1 (by decide))
  cases h3.symm.trans this

/-- C111: a client does not get rid of its filter by setting NULL.  The next call of GOTCHA jumps to NULL;
gotcha_restore_library_filter_func is the way. -/
theorem C111_null_function (strstr : LibC.Mem → Addr → Addr → Except Fault (Option Addr)) (m : LibC.Mem)
    (cs : List Call) (k : Link) : consult strstr m (after (cs ++ [.setNull])) k = .error .nullDeref ∧
      consult strstr m (after (cs ++ [.setNull, .restore])) k = .ok true := by
  constructor
  · rw [after_last]; rfl
  · rw [show cs ++ [Call.setNull, .restore] = (cs ++ [.setNull]) ++ [.restore] by simp, after_last]; rfl

end Gotcha.Filters
