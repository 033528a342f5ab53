import Verif.Model.Rogot
import Verif.Props.Autotee
/-
C120: the test rogot with any calls.
-/
namespace Gotcha.Autotee
open Gotcha

/-- The call of the C library's function that a direct call is. -/
theorem direct_io (O : Outside) (c : Call) (st : St) : ∃ fn d, direct O c st = io O fn (target c) d st ∧
    ∀ st', direct O c st' = io O fn (target c) d st' := by
  cases c <;> exact ⟨_, _, rfl, fun _ => rfl⟩

theorem direct_agree {O : Outside} {t : Int} (c : Call) {a b : St} (h : Agree t a b) (ht : ¬ Private t (target c)) :
    ∃ a' b' r, direct O c a = .ok (a', r) ∧ direct O c b = .ok (b', r) ∧ Agree t a' b' ∧
      a'.teeFILE = a.teeFILE ∧ a'.teeFd = a.teeFd ∧ ∀ ch, Private t ch → a'.out ch = a.out ch := by
  obtain ⟨fn, d, e, e'⟩ := direct_io O c a
  obtain ⟨a', b', r, h1, h2, h3, h4, h5, _⟩ := io_agree (O := O) (fn := fn) (d := d) h ht
  refine ⟨a', b', r, by rw [e, h1], by rw [e', h2], h3, h4, h5, ?_⟩
  intro ch hch
  exact ((io_keeps h1).2.2 ch (by rintro rfl; exact ht hch)).1

theorem directs_agree {O : Outside} {t : Int} : ∀ (cs : List Call) {a b : St}, Agree t a b →
    (∀ c ∈ cs, ¬ Private t (target c)) →
    ∃ a' b' rs, runCalls (direct O) cs a = .ok (a', rs) ∧ runCalls (direct O) cs b = .ok (b', rs) ∧ Agree t a' b' ∧
      a'.teeFILE = a.teeFILE ∧ a'.teeFd = a.teeFd ∧ ∀ ch, Private t ch → a'.out ch = a.out ch
  | [], a, b, h, _ => ⟨a, b, [], rfl, rfl, h, rfl, rfl, fun _ _ => rfl⟩
  | c :: cs, a, b, h, ht => by
    obtain ⟨a1, b1, r, g1, g2, g3, g4, g5, g6⟩ := direct_agree c h (ht c (List.mem_cons_self ..)) (O := O)
    obtain ⟨a2, b2, rs, k1, k2, k3, k4, k5, k6⟩ := directs_agree cs g3 (O := O)
      fun c hc => ht c (List.mem_cons_of_mem _ hc)
    refine ⟨a2, b2, r :: rs, ?_, ?_, k3, k4.trans g4, k5.trans g5, fun ch hch => (k6 ch hch).trans (g6 ch hch)⟩
    · simp only [runCalls, bind, Except.bind, g1, k1]
    · simp only [runCalls, bind, Except.bind, g2, k2]

/-- Without a file to copy to a wrapper does what it wraps. -/
theorem wrapped_null {O : Outside} (hr : SmallFwrite O) (c : Call) {st : St} (h0 : st.teeFILE = .null)
    (h1 : st.teeFd = -1) : wrapped O c st = direct O c st := by
  cases c with
  | fwrite d f =>
    simp only [wrapped, fwriteWrapper, direct, bind, Except.bind, copy, h0, if_true]
    cases h : io O .fwrite (.file f) d st with
    | error e => split <;> rfl
    | ok x => simp only [io_small hr h]; split <;> rfl
  | write fd d => simp [wrapped, writeWrapper, direct, h1, bind, Except.bind]
  | _ => simp [wrapped, printfWrapper, vprintfWrapper, fprintfWrapper, vfprintfWrapper, putsWrapper, fputsWrapper,
      direct, copy, h0, bind, Except.bind] <;> (intro h; simp [h])

theorem wrappeds_null {O : Outside} (hr : SmallFwrite O) {t : Int} : ∀ (cs : List Call) {st : St},
    st.teeFILE = .null → st.teeFd = -1 → (∀ c ∈ cs, ¬ Private t (target c)) →
    runCalls (wrapped O) cs st = runCalls (direct O) cs st
  | [], _, _, _, _ => rfl
  | c :: cs, st, h0, h1, ht => by
    obtain ⟨a', _, r, g1, _, _, g4, g5, _⟩ := direct_agree (O := O) (t := t) c (a := st) (b := st)
      (fun _ _ => ⟨rfl, rfl⟩) (ht c (List.mem_cons_self ..))
    have ih := wrappeds_null hr cs (g4.trans h0) (g5.trans h1) fun c hc => ht c (List.mem_cons_of_mem _ hc)
    simp only [runCalls, bind, Except.bind, wrapped_null hr c h0 h1, g1, ih]

theorem runCalls_append (f : Call → St → Except Fault (St × Int)) : ∀ (cs ds : List Call) {a b c : St} {rs qs : List Int},
    runCalls f cs a = .ok (b, rs) → runCalls f ds b = .ok (c, qs) → runCalls f (cs ++ ds) a = .ok (c, rs ++ qs)
  | [], ds, a, b, c, rs, qs, h, h' => by
    simp only [runCalls, Except.ok.injEq, Prod.mk.injEq] at h
    obtain ⟨rfl, rfl⟩ := h
    exact h'
  | x :: cs, ds, a, b, c, rs, qs, h, h' => by
    simp only [runCalls, bind, Except.bind, List.cons_append] at h ⊢
    cases e : f x a with
    | error e' => rw [e] at h; cases h
    | ok p =>
      rw [e] at h
      simp only at h ⊢
      cases e2 : runCalls f cs p.1 with
      | error e' => rw [e2] at h; cases h
      | ok q =>
        rw [e2] at h
        simp only [Except.ok.injEq, Prod.mk.injEq] at h
        obtain ⟨h1, h2⟩ := h
        rw [runCalls_append f cs ds (b := b) (rs := q.2) (by rw [e2, ← h1]) h']
        simp only [← h2, List.cons_append]

/-- C120: the program of the test, with any calls: as far as the application and everyone else can see it is as if all
calls were made without the tool; and the copy has exactly what went to stdout (and descriptor 1) between the two. -/
theorem C120_rogot {O : Outside} (hO : Complete O) (hr : SmallFwrite O) {t : Int} (hm : t ≠ -1) (h1 : t ≠ 1)
    (before between after : List Call) {st : St}
    (ht : ∀ c ∈ before ++ between ++ after, ¬ Private t (target c)) :
    ∃ st' d rs, teeMain O closeRogot (some t) true before between after st = .ok (st', rs, 0) ∧
      runCalls (direct O) (before ++ between ++ after) st = .ok (d, rs) ∧
      (∀ ch, ¬ Private t ch → st'.out ch = d.out ch) ∧
      st'.out (.file .tee) = st.out (.file .tee) ++ between.flatMap toStdout ∧
      st'.out (.fd t) = st.out (.fd t) ++ between.flatMap toFd1 ∧ st'.teeFILE = .null := by
  have pt : Private t (.file .tee) := Or.inl rfl
  have pf : Private t (.fd t) := Or.inr ⟨hm, rfl⟩
  -- before
  obtain ⟨a1, _, r1, g1, _, _, g4, _, g6⟩ := directs_agree (O := O) (t := t) before (a := st) (b := st)
    (fun _ _ => ⟨rfl, rfl⟩) (fun c hc => ht c (by simp [hc]))
  -- between
  have htb : ∀ c ∈ between, ¬ Private t (target c) := fun c hc => ht c (by simp [hc])
  let i : St := { a1 with teeFILE := .opened, teeFd := t }
  obtain ⟨a2, rs2, k1, _, k3, _, k5⟩ := C66_autotee_complete hO between (st := i) rfl hm h1 htb
  have hrun : ∀ (cs : List Call) {a b : St}, a.teeFd = t → a.teeFILE ≠ .closed → Agree t a b →
      (∀ c ∈ cs, ¬ Private t (target c)) → ∃ a' b' rs, runCalls (wrapped O) cs a = .ok (a', rs) ∧
        runCalls (direct O) cs b = .ok (b', rs) ∧ Agree t a' b' ∧ a'.teeFILE = a.teeFILE := by
    intro cs
    induction cs with
    | nil => intro a b _ _ h _; exact ⟨a, b, [], rfl, rfl, h, rfl⟩
    | cons c cs ih =>
      intro a b hta hc h hp
      obtain ⟨x, y, r, e1, e2, e3, e4, e5⟩ := wrapped_agree (O := O) c (by rw [hta]; exact h) hc
        (by rw [hta]; exact hp c (List.mem_cons_self ..)) hr
      rw [hta] at e3 e5
      obtain ⟨x2, y2, rs, f1, f2, f3, f4⟩ := ih e5 (by rw [e4]; exact hc) e3
        fun c hc => hp c (List.mem_cons_of_mem _ hc)
      refine ⟨x2, y2, r :: rs, ?_, ?_, f3, f4.trans e4⟩
      · simp only [runCalls, bind, Except.bind, e1, f1]
      · simp only [runCalls, bind, Except.bind, e2, f2]
  obtain ⟨a2', b2, r2, q1, q2, q3, q4⟩ := hrun between (a := i) (b := a1) rfl (by simp [i])
    (fun _ _ => ⟨rfl, rfl⟩) htb
  rw [k1] at q1
  simp only [Except.ok.injEq, Prod.mk.injEq] at q1
  obtain ⟨rfl, rfl⟩ := q1
  have q4' : a2.teeFILE = .opened := q4
  -- after
  let z : St := { a2 with teeFILE := .null, teeFd := -1 }
  have hta : ∀ c ∈ after, ¬ Private t (target c) := fun c hc => ht c (by simp [hc])
  obtain ⟨a3, b3, r3, m1, m2, m3, m4, _, m6⟩ := directs_agree (O := O) (t := t) after (a := z) (b := b2) q3 hta
  have m1' := (wrappeds_null hr after (st := z) rfl rfl hta).trans m1
  refine ⟨a3, b3, r1 ++ rs2 ++ r3, ?_, ?_, fun ch hch => (m3 ch hch).1, ?_, ?_, m4⟩
  · have e1 : runCalls (wrapped O) between { a1 with teeFILE := .opened, teeFd := t } = .ok (a2, rs2) := k1
    have e2 : closeRogot a2 = .ok z := by simp only [closeRogot, q4', z]
    simp [teeMain, bind, Except.bind, g1, initAutotee, e1, e2, m1']
  · exact runCalls_append _ _ _ (runCalls_append _ _ _ g1 q2) m2
  · rw [m6 _ pt]
    show a2.out (.file .tee) = _
    rw [k3]
    show a1.out _ ++ _ = _
    rw [g6 _ pt]
  · rw [m6 _ pf]
    show a2.out (.fd t) = _
    rw [show a2.out (.fd t) = _ from k5]
    show a1.out _ ++ _ = _
    rw [g6 _ pf]

/-- C120: the same program with the example's `close_autotee` uses the stream that it has closed, as soon as anything is
printed to stdout afterwards. -/
theorem C120_example {O : Outside} (hr : SmallFwrite O) {t : Int}
    (before between after : List Call) {st : St}
    (ht : ∀ c ∈ before ++ between ++ after, ¬ Private t (target c))
    (hc : ∃ c ∈ after, target c = .file .stdout) :
    teeMain O closeAutotee (some t) true before between after st = .error .uninit := by
  obtain ⟨a1, _, r1, g1, _, _, _, _, _⟩ := directs_agree (O := O) (t := t) before (a := st) (b := st)
    (fun _ _ => ⟨rfl, rfl⟩) (fun c hc => ht c (by simp [hc]))
  obtain ⟨a2, _, r2, k1, _, k4⟩ : ∃ a2 d rs, runCalls (wrapped O) between { a1 with teeFILE := .opened, teeFd := t } = .ok (a2, rs) ∧
      d = a2 ∧ a2.teeFILE = .opened := by
    have : ∀ (cs : List Call) {a : St}, a.teeFILE = .opened → a.teeFd = t → (∀ c ∈ cs, ¬ Private t (target c)) →
        ∃ a2 d rs, runCalls (wrapped O) cs a = .ok (a2, rs) ∧ d = a2 ∧ a2.teeFILE = .opened := by
      intro cs
      induction cs with
      | nil => intro a h _ _; exact ⟨a, a, [], rfl, rfl, h⟩
      | cons c cs ih =>
        intro a h hta hp
        obtain ⟨x, y, r, e1, e2, e3, e4, e5⟩ := wrapped_agree (O := O) c (a := a) (b := a) (fun _ _ => ⟨rfl, rfl⟩)
          (by rw [h]; simp) (by rw [hta]; exact hp c (List.mem_cons_self ..)) hr
        obtain ⟨x2, d, rs, f1, f2, f3⟩ := ih (e4.trans h) (e5.trans hta) fun c hc => hp c (List.mem_cons_of_mem _ hc)
        exact ⟨x2, d, r :: rs, by simp only [runCalls, bind, Except.bind, e1, f1], f2, f3⟩
    exact this between rfl rfl fun c hc => ht c (by simp [hc])
  have hz : closeAutotee a2 = .ok { a2 with teeFILE := .closed, teeFd := -1 } := by simp only [closeAutotee, k4]
  have hrun : ∀ (cs : List Call) {z : St}, (∃ s, s.teeFILE = .opened ∧ closeAutotee s = .ok z) →
      (∀ c ∈ cs, ¬ Private t (target c)) → (∃ c ∈ cs, target c = .file .stdout) →
      runCalls (wrapped O) cs z = .error .uninit := by
    intro cs
    induction cs with
    | nil => intro z _ _ h; obtain ⟨_, h, _⟩ := h; cases h
    | cons c cs ih =>
      intro z hs hp hex
      obtain ⟨s, hs1, hs2⟩ := hs
      by_cases hct : target c = .file .stdout
      · simp only [runCalls, bind, Except.bind, C67_output_after_close_refuted O hs1 hs2 c hct]
      · have e := C67_other_calls_after_close hr hs1 hs2 c hct
        obtain ⟨z', _, r, g1, _, _, g4, g5, _⟩ := direct_agree (O := O) (t := t) c (a := z) (b := z)
          (fun _ _ => ⟨rfl, rfl⟩) (hp c (List.mem_cons_self ..))
        have hzc : z.teeFILE = .closed ∧ z.teeFd = -1 := by
          simp only [closeAutotee, hs1, Except.ok.injEq] at hs2
          subst hs2
          exact ⟨rfl, rfl⟩
        have := ih (z := z') ⟨{ z' with teeFILE := .opened }, rfl, by
          have h1 := g4.trans hzc.1
          have h2 := g5.trans hzc.2
          simp only [closeAutotee, Except.ok.injEq]
          cases z'
          simp_all⟩ (fun c hc => hp c (List.mem_cons_of_mem _ hc)) (by
            obtain ⟨d, hd, hdt⟩ := hex
            rcases List.mem_cons.1 hd with rfl | hd
            · exact absurd hdt hct
            · exact ⟨d, hd, hdt⟩)
        simp only [runCalls, bind, Except.bind, e, g1, this]
  have := hrun after ⟨a2, k4, hz⟩ (fun c hc => ht c (by simp [hc])) hc
  simp [teeMain, bind, Except.bind, g1, initAutotee, k1, hz, this]

/-- What the test's own calls leave in tee.out. -/
theorem tee_calls_public {t : Int} : ∀ c ∈ teeBefore ++ teeBetween ++ teeAfter, ¬ Private t (target c) := by
  intro c hc
  simp only [teeBefore, teeBetween, teeAfter, List.mem_append, List.mem_cons, List.not_mem_nil, or_false] at hc
  have : target c = .file .stdout ∨ target c = .file (.other 2) := by
    rcases hc with (h | h | h | h | h | h | h | h | h | h) | h <;> subst h <;> simp [target]
  rcases this with h | h <;> rw [h] <;> (rintro (e | ⟨_, e⟩) <;> cases e)

/-- C120: if the file cannot be opened, or gotcha_wrap fails, the program ends with -1 after its first calls, and nothing
is copied. -/
theorem C120_init_fails {O : Outside} (close : St → Except Fault St) {t : Int} {file : Option Int} {wrapOk : Bool}
    (hf : file = none ∨ wrapOk = false) (before between after : List Call) {st : St}
    (ht : ∀ c ∈ before, ¬ Private t (target c)) :
    ∃ st' d rs, teeMain O close file wrapOk before between after st = .ok (st', rs, -1) ∧
      runCalls (direct O) before st = .ok (d, rs) ∧ st'.out = d.out ∧
      ∀ ch, Private t ch → st'.out ch = st.out ch := by
  obtain ⟨a1, _, r1, g1, _, _, _, _, g6⟩ := directs_agree (O := O) (t := t) before (a := st) (b := st)
    (fun _ _ => ⟨rfl, rfl⟩) ht
  cases file with
  | none =>
    refine ⟨{ a1 with teeFILE := .null }, a1, r1, ?_, g1, rfl, g6⟩
    simp [teeMain, bind, Except.bind, g1, initAutotee]
  | some fd =>
    obtain rfl : wrapOk = false := by simpa using hf
    refine ⟨{ a1 with teeFILE := .opened, teeFd := fd }, a1, r1, ?_, g1, rfl, g6⟩
    simp [teeMain, bind, Except.bind, g1, initAutotee]

/-- The C library takes everything, and what it returns is small. -/
def acceptSmall : Outside := fun _ _ _ d => (d.length, min d.length 1000000)

theorem acceptSmall_small : SmallFwrite acceptSmall := by
  intro ch k d
  simp only [acceptSmall]
  omega

/-- Not vacuous: the test itself.  The copy has lines one to seven. -/
example : ∃ st' rs, teeMain acceptSmall closeRogot (some 5) true teeBefore teeBetween teeAfter fresh = .ok (st', rs, 0) ∧
    st'.out (.file .tee) = txt ("First line\nSecond line\nThird line\nForth line\nFifth line\nSixth line\n" ++
      "Seventh line\n") := by
  obtain ⟨st', d, rs, h1, _, _, h2, _⟩ := C120_rogot (O := acceptSmall) (fun _ _ _ _ => Nat.le_refl _)
    acceptSmall_small (t := 5) (by decide) (by decide) teeBefore teeBetween teeAfter (st := fresh) tee_calls_public
  refine ⟨st', rs, h1, h2.trans ?_⟩
  decide +kernel

/-- And the example's own test program, as it is in src/example/autotee. -/
example : teeMain acceptSmall closeAutotee (some 5) true teeBefore teeBetween teeAfter fresh = .error .uninit :=
  C120_example acceptSmall_small teeBefore teeBetween teeAfter tee_calls_public
    ⟨_, List.mem_singleton_self _, rfl⟩

example : ∃ st' rs, teeMain acceptSmall closeRogot none true teeBefore teeBetween teeAfter fresh = .ok (st', rs, -1) := by
  obtain ⟨st', d, rs, h, _⟩ := C120_init_fails (O := acceptSmall) closeRogot (t := 5) (Or.inl rfl) teeBefore teeBetween
    teeAfter (st := fresh) (wrapOk := true) (fun c hc => tee_calls_public c (by simp [hc]))
  exact ⟨st', rs, h⟩

end Gotcha.Autotee
