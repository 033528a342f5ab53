import Verif.Model.Autotee
/-
Properties C65-C67: the example tool autotee.
-/
namespace Gotcha.Autotee
open Gotcha

/-- The channels of the copy: the stream of the tool and its descriptor. -/
def Private (teeFd : Int) (ch : Chan) : Prop := ch = .file .tee ∨ (teeFd ≠ -1 ∧ ch = .fd teeFd)

/-- The channel a call is meant for. -/
def target : Call → Chan
  | .printf _ | .vprintf _ | .puts _ => .file .stdout
  | .fprintf f _ | .vfprintf f _ | .fputs _ f | .fwrite _ f => .file f
  | .write fd _ => .fd fd

/-- Two situations agree on everything but the channels of the copy. -/
def Agree (teeFd : Int) (a b : St) : Prop :=
  ∀ ch, ¬ Private teeFd ch → a.out ch = b.out ch ∧ a.uses ch = b.uses ch

theorem io_keeps {O : Outside} {fn ch d} {st st' : St} {r : Int} (h : io O fn ch d st = .ok (st', r)) :
    st'.teeFILE = st.teeFILE ∧ st'.teeFd = st.teeFd ∧
      ∀ c, c ≠ ch → st'.out c = st.out c ∧ st'.uses c = st.uses c := by
  unfold io at h
  split at h
  · cases h
  · cases h
    exact ⟨rfl, rfl, fun c hc => ⟨upd_ne _ _ hc, upd_ne _ _ hc⟩⟩

theorem copy_spec {O : Outside} {fn d} {st : St} (hc : st.teeFILE ≠ .closed) :
    ∃ st', copy O fn d st = .ok st' ∧ st'.teeFILE = st.teeFILE ∧ st'.teeFd = st.teeFd ∧
      ∀ c, c ≠ .file .tee → st'.out c = st.out c ∧ st'.uses c = st.uses c := by
  unfold copy
  split
  · exact ⟨st, rfl, rfl, rfl, fun _ _ => ⟨rfl, rfl⟩⟩
  · next hn =>
    have ho : st.teeFILE = .opened := by cases h : st.teeFILE <;> simp_all
    have : ¬ ((Chan.file .tee = .file .tee) ∧ st.teeFILE ≠ .opened) := by simp [ho]
    rw [io, if_neg this]
    exact ⟨_, rfl, rfl, rfl, fun c hc => ⟨upd_ne _ _ hc, upd_ne _ _ hc⟩⟩

/-- An operation on a channel of the application behaves the same in both situations. -/
theorem io_agree {O : Outside} {fn ch d} {a b : St} {t : Int} (h : Agree t a b) (hp : ¬ Private t ch) :
    ∃ a' b' r, io O fn ch d a = .ok (a', r) ∧ io O fn ch d b = .ok (b', r) ∧ Agree t a' b' ∧
      a'.teeFILE = a.teeFILE ∧ a'.teeFd = a.teeFd ∧ b'.teeFILE = b.teeFILE := by
  have hne : ch ≠ .file .tee := fun e => hp (Or.inl e)
  have ha : ¬ (ch = .file .tee ∧ a.teeFILE ≠ .opened) := fun e => hne e.1
  have hb : ¬ (ch = .file .tee ∧ b.teeFILE ≠ .opened) := fun e => hne e.1
  simp only [io, if_neg ha, if_neg hb, ← (h ch hp).2]
  refine ⟨_, _, _, rfl, rfl, ?_, rfl, rfl, rfl⟩
  intro c hc
  by_cases e : c = ch
  · subst e; simp only [upd_self, (h c hc).1, and_self]
  · simp only [upd_ne _ _ e]; exact h c hc

theorem copy_agree {O : Outside} {fn d} {a b : St} {t : Int} (h : Agree t a b)
    (hc : a.teeFILE ≠ .closed) : ∃ a', copy O fn d a = .ok a' ∧ Agree t a' b ∧
      a'.teeFILE = a.teeFILE ∧ a'.teeFd = a.teeFd := by
  obtain ⟨a', h1, h2, h3, h4⟩ := copy_spec (O := O) (fn := fn) (d := d) hc
  refine ⟨a', h1, ?_, h2, h3⟩
  intro c hcp
  have := h4 c (fun e => hcp (Or.inl e))
  rw [this.1, this.2]
  exact h c hcp

/-- fwrite returns numbers that fit in an `int`: fewer than 2^31 items at a time. -/
def SmallFwrite (O : Outside) : Prop :=
  ∀ ch k d, 0 ≤ (O .fwrite ch k d).2 ∧ (O .fwrite ch k d).2 < 2147483648

theorem narrow_small {r : Int} (h0 : 0 ≤ r) (h : r < 2147483648) : narrow r = r := by
  unfold narrow
  rw [BitVec.toInt_ofInt]
  exact Int.bmod_eq_of_le (by omega) (by omega)

theorem narrow_range (r : Int) : -2147483648 ≤ narrow r ∧ narrow r < 2147483648 := by
  have h1 := BitVec.le_toInt (BitVec.ofInt 32 r)
  have h2 := BitVec.toInt_lt (x := BitVec.ofInt 32 r)
  exact ⟨by simpa [narrow] using h1, by simpa [narrow] using h2⟩

theorem io_small {O : Outside} (hr : SmallFwrite O) {ch d} {st st' : St} {r : Int}
    (h : io O .fwrite ch d st = .ok (st', r)) : narrow r = r := by
  unfold io at h
  split at h
  · cases h
  · cases h
    exact narrow_small (hr _ _ _).1 (hr _ _ _).2

/-- One intercepted call. -/
theorem wrapped_agree {O : Outside} (c : Call) {a b : St} (h : Agree a.teeFd a b)
    (hc : a.teeFILE ≠ .closed) (ht : ¬ Private a.teeFd (target c)) (hr : SmallFwrite O) :
    ∃ a' b' r, wrapped O c a = .ok (a', r) ∧ direct O c b = .ok (b', r) ∧ Agree a.teeFd a' b' ∧
      a'.teeFILE = a.teeFILE ∧ a'.teeFd = a.teeFd := by
  have hso : ¬ Private a.teeFd (.file .stdout) := by rintro (h | ⟨-, h⟩) <;> cases h
  -- a copy followed by the operation on stdout
  have two : ∀ fn d, ∃ a' b' r, (do
        let st ← copy O fn d a
        io O fn (.file .stdout) d st) = .ok (a', r) ∧ io O fn (.file .stdout) d b = .ok (b', r) ∧
      Agree a.teeFd a' b' ∧ a'.teeFILE = a.teeFILE ∧ a'.teeFd = a.teeFd := by
    intro fn d
    obtain ⟨a1, g1, g2, g3, g4⟩ := copy_agree (O := O) (fn := fn) (d := d) h hc
    obtain ⟨a2, b2, r, k1, k2, k3, k4, k5, -⟩ := io_agree (O := O) (fn := fn) (d := d) g2 hso
    refine ⟨a2, b2, r, ?_, k2, k3, k4.trans g3, k5.trans g4⟩
    simp only [g1, bind, Except.bind, k1]
  -- the operation alone
  have one : ∀ fn ch d, ¬ Private a.teeFd ch → ∃ a' b' r, io O fn ch d a = .ok (a', r) ∧
      io O fn ch d b = .ok (b', r) ∧ Agree a.teeFd a' b' ∧ a'.teeFILE = a.teeFILE ∧
      a'.teeFd = a.teeFd := by
    intro fn ch d hch
    obtain ⟨a2, b2, r, k1, k2, k3, k4, k5, -⟩ := io_agree (O := O) (fn := fn) (d := d) h hch
    exact ⟨a2, b2, r, k1, k2, k3, k4, k5⟩
  cases c with
  | printf t => exact two .fmt t
  | vprintf t => exact two .fmt t
  | fprintf f t =>
    simp only [wrapped, fprintfWrapper, direct]
    by_cases hf : f = .stdout
    · subst hf; simpa using two .fmt t
    · simpa [hf] using one .fmt (.file f) t ht
  | vfprintf f t =>
    simp only [wrapped, vfprintfWrapper, direct]
    by_cases hf : f = .stdout
    · subst hf; simpa using two .fmt t
    · simpa [hf] using one .fmt (.file f) t ht
  | fputs s f =>
    simp only [wrapped, fputsWrapper, direct]
    by_cases hf : f = .stdout
    · subst hf; simpa using two .fputs s
    · simpa [hf] using one .fputs (.file f) s ht
  | fwrite d f =>
    simp only [wrapped, fwriteWrapper, direct]
    by_cases hf : f = .stdout
    · subst hf
      obtain ⟨a', b', r, g1, g2, g3⟩ := two .fwrite d
      refine ⟨a', b', r, ?_, g2, g3⟩
      have hn := io_small hr g2
      simp only [bind, Except.bind, ne_eq, not_true_eq_false, if_false] at g1 ⊢
      cases hcp : copy O .fwrite d a with
      | error e => rw [hcp] at g1; cases g1
      | ok x => simp only [hcp] at g1 ⊢; rw [g1]; simp only [hn]
    · obtain ⟨a', b', r, g1, g2, g3⟩ := one .fwrite (.file f) d ht
      refine ⟨a', b', r, ?_, g2, g3⟩
      simp only [bind, Except.bind, ne_eq, hf, not_false_eq_true, if_true, g1, io_small hr g2]
  | puts s =>
    obtain ⟨a1, g1, g2, g3, g4⟩ := copy_agree (O := O) (fn := .fputs) (d := s) h hc
    obtain ⟨a2, k1, k2, k3, k4⟩ := copy_agree (O := O) (fn := .fputs) (d := [10]) g2 (by rw [g3]; exact hc)
    obtain ⟨a3, b3, r, q1, q2, q3, q4, q5, -⟩ := io_agree (O := O) (fn := .puts) (d := s ++ [10]) k2 hso
    refine ⟨a3, b3, r, ?_, q2, q3, q4.trans (k3.trans g3), q5.trans (k4.trans g4)⟩
    simp only [wrapped, putsWrapper, g1, k1, bind, Except.bind, q1]
  | write fd d =>
    simp only [wrapped, writeWrapper, direct]
    by_cases hf : fd = 1
    · subst hf
      by_cases hm : a.teeFd = -1
      · simpa [hm, bind, Except.bind] using one .write (.fd 1) d ht
      · have hch : ¬ ((Chan.fd a.teeFd) = .file .tee ∧ a.teeFILE ≠ .opened) := by rintro ⟨e, -⟩; cases e
        have g := io_keeps (O := O) (fn := .write) (ch := .fd a.teeFd) (d := d) (st := a)
          (by rw [io, if_neg hch])
        obtain ⟨a2, b2, r, k1, k2, k3, k4, k5, -⟩ := io_agree (O := O) (fn := .write) (ch := .fd 1) (d := d)
          (a := { a with
            out := upd a.out (.fd a.teeFd) (a.out (.fd a.teeFd) ++
              d.take (O .write (.fd a.teeFd) (a.uses (.fd a.teeFd)) d).1),
            uses := upd a.uses (.fd a.teeFd) (a.uses (.fd a.teeFd) + 1) }) (b := b) (t := a.teeFd)
          (by
            intro c hcp
            have := g.2.2 c (fun e => hcp (Or.inr ⟨hm, e⟩))
            rw [this.1, this.2]
            exact h c hcp) ht
        refine ⟨a2, b2, r, ?_, k2, k3, k4, k5⟩
        simp only [ne_eq, not_true_eq_false, if_false, hm, not_false_eq_true, if_true, bind, Except.bind]
        rw [io, if_neg hch]
        exact k1
    · simpa [hf] using one .write (.fd fd) d ht

/-- C65: with autotee in place every sequence of output calls returns the same values and leaves the
same bytes in every stream and descriptor as without it, whatever the outside does (short writes,
errors), except for the stream and the descriptor of the copy itself, which the application does not
use.  Excluded, because false: fwrite of 2^31 items or more (`C65_fwrite_result_refuted`). -/
theorem C65_autotee_transparent {O : Outside} (hr : SmallFwrite O) : ∀ (cs : List Call) {a b : St}, Agree a.teeFd a b →
    a.teeFILE ≠ .closed → (∀ c ∈ cs, ¬ Private a.teeFd (target c)) →
    ∃ a' b' rs, runCalls (wrapped O) cs a = .ok (a', rs) ∧ runCalls (direct O) cs b = .ok (b', rs) ∧
      ∀ ch, ¬ Private a.teeFd ch → a'.out ch = b'.out ch := by
  intro cs
  induction cs with
  | nil => intro a b h _ _; exact ⟨a, b, [], rfl, rfl, fun ch hch => (h ch hch).1⟩
  | cons c cs ih =>
    intro a b h hc ht
    obtain ⟨a1, b1, r, g1, g2, g3, g4, g5⟩ := wrapped_agree (O := O) c h hc (ht c (List.mem_cons_self ..)) hr
    obtain ⟨a2, b2, rs, k1, k2, k3⟩ := ih (a := a1) (b := b1) (by rw [g5]; exact g3) (by rw [g4]; exact hc)
      (by intro c hcm; rw [g5]; exact ht c (List.mem_cons_of_mem _ hcm))
    refine ⟨a2, b2, r :: rs, ?_, ?_, by rw [g5] at k3; exact k3⟩
    · simp only [runCalls, bind, Except.bind, g1, k1]
    · simp only [runCalls, bind, Except.bind, g2, k2]

/-- Everything is accepted. -/
def Complete (O : Outside) : Prop := ∀ fn ch k d, d.length ≤ (O fn ch k d).1

theorem io_complete {O : Outside} (hO : Complete O) {fn ch d} {st : St}
    (h : ch = .file .tee → st.teeFILE = .opened) :
    ∃ st' r, io O fn ch d st = .ok (st', r) ∧ st'.teeFILE = st.teeFILE ∧ st'.teeFd = st.teeFd ∧
      st'.out = upd st.out ch (st.out ch ++ d) := by
  have : ¬ (ch = .file .tee ∧ st.teeFILE ≠ .opened) := fun e => e.2 (h e.1)
  rw [io, if_neg this]
  refine ⟨_, _, rfl, rfl, rfl, ?_⟩
  rw [List.take_of_length_le (hO _ _ _ _)]

/-- The bytes a call adds to stdout, the stream. -/
def toStdout : Call → List UInt8
  | .printf t | .vprintf t => t
  | .puts s => s ++ [10]
  | .fprintf f t | .vfprintf f t | .fputs t f | .fwrite t f => if f = .stdout then t else []
  | .write _ _ => []

/-- The bytes a call adds to descriptor 1. -/
def toFd1 : Call → List UInt8
  | .write fd d => if fd = 1 then d else []
  | _ => []

theorem wrapped_complete {O : Outside} (hO : Complete O) (c : Call) {st : St}
    (ho : st.teeFILE = .opened) (hm : st.teeFd ≠ -1) (h1 : st.teeFd ≠ 1)
    (ht : ¬ Private st.teeFd (target c)) :
    ∃ st' r, wrapped O c st = .ok (st', r) ∧ st'.teeFILE = .opened ∧ st'.teeFd = st.teeFd ∧
      st'.out (.file .stdout) = st.out (.file .stdout) ++ toStdout c ∧
      st'.out (.file .tee) = st.out (.file .tee) ++ toStdout c ∧
      st'.out (.fd 1) = st.out (.fd 1) ++ toFd1 c ∧
      st'.out (.fd st.teeFd) = st.out (.fd st.teeFd) ++ toFd1 c := by
  have hn1 : Chan.fd 1 ≠ .fd st.teeFd := by simpa using fun e => h1 e.symm
  have cp : ∀ (st : St) fn d, st.teeFILE = .opened → ∃ st', copy O fn d st = .ok st' ∧
      st'.teeFILE = .opened ∧ st'.teeFd = st.teeFd ∧
      st'.out = upd st.out (.file .tee) (st.out (.file .tee) ++ d) := by
    intro st fn d ho
    obtain ⟨s, r, g1, g2, g3, g4⟩ := io_complete hO (fn := fn) (ch := .file .tee) (d := d) (fun _ => ho)
    refine ⟨s, ?_, g2.trans ho, g3, g4⟩
    have : ¬ st.teeFILE = .null := by rw [ho]; exact fun h => TeeFile.noConfusion h
    rw [copy, if_neg this, g1]
  have two : ∀ fn fn' d d', d' = d → ∃ st' r, (do
        let st ← copy O fn d st
        io O fn' (.file .stdout) d' st) = .ok (st', r) ∧ st'.teeFILE = .opened ∧ st'.teeFd = st.teeFd ∧
      st'.out (.file .stdout) = st.out (.file .stdout) ++ d ∧
      st'.out (.file .tee) = st.out (.file .tee) ++ d ∧
      st'.out (.fd 1) = st.out (.fd 1) ++ [] ∧
      st'.out (.fd st.teeFd) = st.out (.fd st.teeFd) ++ [] := by
    rintro fn fn' d d' rfl
    obtain ⟨s1, g1, g2, g3, g4⟩ := cp st fn d' ho
    obtain ⟨s2, r, k1, k2, k3, k4⟩ := io_complete hO (fn := fn') (ch := .file .stdout) (d := d') (st := s1)
      (fun e => by cases e)
    refine ⟨s2, r, by simp only [g1, bind, Except.bind, k1], k2.trans g2, k3.trans g3, ?_, ?_, ?_, ?_⟩ <;>
      rw [k4, g4] <;> simp [upd]
  have one : ∀ fn ch d, ch ≠ .file .stdout → ch ≠ .file .tee → ch ≠ .fd 1 → ch ≠ .fd st.teeFd →
      ∃ st' r, io O fn ch d st = .ok (st', r) ∧ st'.teeFILE = .opened ∧ st'.teeFd = st.teeFd ∧
      st'.out (.file .stdout) = st.out (.file .stdout) ++ [] ∧
      st'.out (.file .tee) = st.out (.file .tee) ++ [] ∧
      st'.out (.fd 1) = st.out (.fd 1) ++ [] ∧
      st'.out (.fd st.teeFd) = st.out (.fd st.teeFd) ++ [] := by
    intro fn ch d c1 c2 c3 c4
    obtain ⟨s2, r, k1, k2, k3, k4⟩ := io_complete hO (fn := fn) (ch := ch) (d := d) (st := st)
      (fun e => absurd e c2)
    refine ⟨s2, r, k1, k2.trans ho, k3, ?_, ?_, ?_, ?_⟩ <;> rw [k4] <;>
      simp [upd, c1.symm, c2.symm, c3.symm, c4.symm]
  have priv : ∀ {f}, ¬ Private st.teeFd (.file f) → Chan.file f ≠ .file .tee := fun h e => h (Or.inl e)
  cases c with
  | printf t => exact two .fmt .fmt t t rfl
  | vprintf t => exact two .fmt .fmt t t rfl
  | fprintf f t =>
    simp only [wrapped, fprintfWrapper, toStdout, toFd1]
    by_cases hf : f = .stdout
    · subst hf; simpa using two .fmt .fmt t t rfl
    · simpa [hf] using one .fmt (.file f) t (by simpa using hf) (priv ht) (by simp) (by simp)
  | vfprintf f t =>
    simp only [wrapped, vfprintfWrapper, toStdout, toFd1]
    by_cases hf : f = .stdout
    · subst hf; simpa using two .fmt .fmt t t rfl
    · simpa [hf] using one .fmt (.file f) t (by simpa using hf) (priv ht) (by simp) (by simp)
  | fputs s f =>
    simp only [wrapped, fputsWrapper, toStdout, toFd1]
    by_cases hf : f = .stdout
    · subst hf; simpa using two .fputs .fputs s s rfl
    · simpa [hf] using one .fputs (.file f) s (by simpa using hf) (priv ht) (by simp) (by simp)
  | fwrite d f =>
    simp only [wrapped, fwriteWrapper, toStdout, toFd1]
    by_cases hf : f = .stdout
    · subst hf
      obtain ⟨s, r, g1, g2⟩ := two .fwrite .fwrite d d rfl
      refine ⟨s, narrow r, ?_, by simpa using g2⟩
      simp only [bind, Except.bind, ne_eq, not_true_eq_false, if_false] at g1 ⊢
      cases hcp : copy O .fwrite d st with
      | error e => rw [hcp] at g1; cases g1
      | ok x => simp only [hcp] at g1 ⊢; rw [g1]
    · obtain ⟨s, r, g1, g2⟩ := one .fwrite (.file f) d (by simpa using hf) (priv ht) (by simp) (by simp)
      refine ⟨s, narrow r, ?_, by simpa [hf] using g2⟩
      simp only [bind, Except.bind, ne_eq, hf, not_false_eq_true, if_true, g1]
  | puts s =>
    obtain ⟨s1, g1, g2, g3, g4⟩ := cp st .fputs s ho
    obtain ⟨s2, q1, q2, q3, q4⟩ := cp s1 .fputs [10] g2
    obtain ⟨s3, r, k1, k2, k3, k4⟩ := io_complete hO (fn := .puts) (ch := .file .stdout) (d := s ++ [10])
      (st := s2) (fun e => by cases e)
    refine ⟨s3, r, by simp only [wrapped, putsWrapper, g1, q1, bind, Except.bind, k1], k2.trans q2,
      k3.trans (q3.trans g3), ?_, ?_, ?_, ?_⟩ <;> rw [k4, q4, g4] <;> simp [upd, toStdout, toFd1]
  | write fd d =>
    simp only [wrapped, writeWrapper, toStdout, toFd1]
    by_cases hf : fd = 1
    · subst hf
      obtain ⟨s1, r1, g1, g2, g3, g4⟩ := io_complete hO (fn := .write) (ch := .fd st.teeFd) (d := d)
        (st := st) (fun e => by cases e)
      obtain ⟨s2, r, k1, k2, k3, k4⟩ := io_complete hO (fn := .write) (ch := .fd 1) (d := d)
        (st := s1) (fun e => by cases e)
      refine ⟨s2, r, by simp [hm, g1, bind, Except.bind, k1], (k2.trans g2).trans ho, k3.trans g3,
        ?_, ?_, ?_, ?_⟩ <;> rw [k4, g4] <;> simp [upd, hn1, hn1.symm]
    · have h4 : Chan.fd fd ≠ .fd st.teeFd := fun e => ht (Or.inr ⟨hm, e⟩)
      simpa [hf] using one .write (.fd fd) d (by simp) (by simp) (by simpa using hf) h4

/-- C66: while the copy is open and everything is accepted, the copy's stream receives exactly the bytes
that stdout receives through the stream functions, and its descriptor exactly those that descriptor 1
receives through write, each in the same order. -/
theorem C66_autotee_complete {O : Outside} (hO : Complete O) : ∀ (cs : List Call) {st : St},
    st.teeFILE = .opened → st.teeFd ≠ -1 → st.teeFd ≠ 1 →
    (∀ c ∈ cs, ¬ Private st.teeFd (target c)) →
    ∃ st' rs, runCalls (wrapped O) cs st = .ok (st', rs) ∧
      st'.out (.file .stdout) = st.out (.file .stdout) ++ cs.flatMap toStdout ∧
      st'.out (.file .tee) = st.out (.file .tee) ++ cs.flatMap toStdout ∧
      st'.out (.fd 1) = st.out (.fd 1) ++ cs.flatMap toFd1 ∧
      st'.out (.fd st.teeFd) = st.out (.fd st.teeFd) ++ cs.flatMap toFd1 := by
  intro cs
  induction cs with
  | nil => intro st _ _ _ _; exact ⟨st, [], rfl, by simp, by simp, by simp, by simp⟩
  | cons c cs ih =>
    intro st ho hm h1 ht
    obtain ⟨s1, r, g1, g2, g3, g4, g5, g6, g7⟩ := wrapped_complete hO c ho hm h1
      (ht c (List.mem_cons_self ..))
    obtain ⟨s2, rs, k1, k4, k5, k6, k7⟩ := ih (st := s1) g2 (by rw [g3]; exact hm) (by rw [g3]; exact h1)
      (by intro c hc; rw [g3]; exact ht c (List.mem_cons_of_mem _ hc))
    refine ⟨s2, r :: rs, by simp only [runCalls, bind, Except.bind, g1, k1], ?_, ?_, ?_, ?_⟩
    · rw [k4, g4]; simp
    · rw [k5, g5]; simp
    · rw [k6, g6]; simp
    · rw [g3] at k7; rw [k7, g7]; simp

/-- An outside that accepts everything. -/
def accept : Outside := fun _ _ _ d => (d.length, d.length)

/-- Nothing written yet, nothing opened. -/
def fresh : St := { out := fun _ => [], uses := fun _ => 0, teeFILE := .null, teeFd := -1 }

/-- "a" printed, "b" put, "c" written, and an error message that is not copied. -/
example : ∃ st' rs, runCalls (wrapped accept) [.printf [97], .puts [98], .write 1 [99], .fprintf (.other 2) [33]]
      (initAutotee (some 5) true fresh).1 = .ok (st', rs) ∧
    st'.out (.file .tee) = [97, 98, 10] ∧ st'.out (.fd 5) = [99] ∧ st'.out (.file .stdout) = [97, 98, 10] := by
  obtain ⟨st', rs, h, h1, h2, -, h4⟩ := C66_autotee_complete (O := accept)
    (fun _ _ _ _ => Nat.le_refl _) [.printf [97], .puts [98], .write 1 [99], .fprintf (.other 2) [33]]
    (st := (initAutotee (some 5) true fresh).1) rfl (by decide) (by decide)
    (by intro c hc; simp only [List.mem_cons, List.not_mem_nil, or_false] at hc
        rcases hc with rfl | rfl | rfl | rfl <;> (rintro (e | ⟨-, e⟩) <;> cases e))
  exact ⟨st', rs, h, h2, h4, h1⟩

/-- The same calls, with an outside that accepts one byte at a time, next to the direct calls. -/
example : ∃ a b rs, runCalls (wrapped (fun _ _ _ _ => (1, 1))) [.printf [97, 98], .write 1 [99, 100]]
      (initAutotee (some 5) true fresh).1 = .ok (a, rs) ∧
    runCalls (direct (fun _ _ _ _ => (1, 1))) [.printf [97, 98], .write 1 [99, 100]] fresh = .ok (b, rs) ∧
    a.out (.fd 1) = b.out (.fd 1) := by
  obtain ⟨a, b, rs, h1, h2, h3⟩ := C65_autotee_transparent (O := fun _ _ _ _ => (1, 1))
    (fun _ _ _ => ⟨Int.zero_le_ofNat 1, (by decide : (1 : Int) < 2147483648)⟩) [.printf [97, 98], .write 1 [99, 100]] (a := (initAutotee (some 5) true fresh).1) (b := fresh)
    (fun _ _ => ⟨rfl, rfl⟩) (by decide)
    (by intro c hc; simp only [List.mem_cons, List.not_mem_nil, or_false] at hc
        rcases hc with rfl | rfl <;> (rintro (e | ⟨-, e⟩) <;> cases e))
  exact ⟨a, b, rs, h1, h2, h3 _ (by rintro (e | ⟨-, e⟩) <;> cases e)⟩

/-- C65, its limit: an fwrite to any stream that returns 2^31 or more items without the tool returns
something else with it: the wrapper is declared to return an `int`. -/
theorem C65_fwrite_result_refuted {O : Outside} {d f} {st st1 : St} {r1 : Int}
    (hc : st.teeFILE ≠ .closed)
    (hd : direct O (.fwrite d f) st = .ok (st1, r1)) (hbig : 2147483648 ≤ r1) :
    ∃ st2 r2, wrapped O (.fwrite d f) st = .ok (st2, r2) ∧ r2 ≠ r1 := by
  have hne : ∀ r, narrow r ≠ r1 := fun r e => by have := narrow_range r; omega
  simp only [wrapped, fwriteWrapper, bind, Except.bind]
  by_cases hs : f = .stdout
  · subst hs
    obtain ⟨s1, g1, -⟩ := copy_spec (O := O) (fn := .fwrite) (d := d) hc
    have : ¬ ((Chan.file .stdout) = .file .tee ∧ s1.teeFILE ≠ .opened) := by rintro ⟨e, -⟩; cases e
    simp only [ne_eq, not_true_eq_false, if_false, g1, io, if_neg this]
    exact ⟨_, _, rfl, hne _⟩
  · simp only [direct] at hd
    simp only [ne_eq, hs, not_false_eq_true, if_true, hd]
    exact ⟨_, _, rfl, hne _⟩

/-- A C library whose fwrite takes 2^31 items. -/
example : ∃ st1, direct (fun _ _ _ d => (d.length, 2147483648)) (.fwrite [97] .stdout) fresh
      = .ok (st1, 2147483648) ∧
    ∃ st2 r2, wrapped (fun _ _ _ d => (d.length, 2147483648)) (.fwrite [97] .stdout) fresh
      = .ok (st2, r2) ∧ r2 ≠ 2147483648 :=
  ⟨_, rfl, C65_fwrite_result_refuted (by decide) rfl (Int.le_refl _)⟩

/-- C67: output after `close_autotee` should go to stdout alone.  Refuted: `tee_FILE` keeps pointing to
the closed stream, and every call that prints to stdout through a stream function uses it. -/
theorem C67_output_after_close_refuted (O : Outside) {st st' : St} (ho : st.teeFILE = .opened)
    (hc : closeAutotee st = .ok st') (c : Call) (ht : target c = .file .stdout) :
    wrapped O c st' = .error .uninit := by
  have hcl : st'.teeFILE = .closed := by
    unfold closeAutotee at hc; rw [ho] at hc; cases hc; rfl
  have cp : ∀ fn d, copy O fn d st' = .error .uninit := by
    intro fn d
    have h1 : ¬ st'.teeFILE = .null := by rw [hcl]; exact fun h => TeeFile.noConfusion h
    have h2 : (Chan.file .tee = .file .tee ∧ st'.teeFILE ≠ .opened) := ⟨rfl, by rw [hcl]; exact fun h => TeeFile.noConfusion h⟩
    rw [copy, if_neg h1, io, if_pos h2]
  cases c with
  | printf t => simp only [wrapped, printfWrapper, cp, bind, Except.bind]
  | vprintf t => simp only [wrapped, vprintfWrapper, cp, bind, Except.bind]
  | puts s => simp only [wrapped, putsWrapper, cp, bind, Except.bind]
  | fprintf f t => cases ht; simp [wrapped, fprintfWrapper, cp, bind, Except.bind]
  | vfprintf f t => cases ht; simp [wrapped, vfprintfWrapper, cp, bind, Except.bind]
  | fputs s f => cases ht; simp [wrapped, fputsWrapper, cp, bind, Except.bind]
  | fwrite d f => cases ht; simp [wrapped, fwriteWrapper, cp, bind, Except.bind]
  | write fd d => cases ht

/-- C67: closing twice uses the closed stream as well. -/
theorem C67_close_twice_refuted {st st' : St} (ho : st.teeFILE = .opened)
    (hc : closeAutotee st = .ok st') : closeAutotee st' = .error .uninit := by
  unfold closeAutotee at hc
  rw [ho] at hc
  cases hc
  rfl

/-- C66: init_autotee returns 0 just when the file was opened and gotcha_wrap succeeded, and -1
otherwise; copies are made as soon as the file is open, whether or not all functions were found. -/
theorem C66_init (file : Option Int) (wrapOk : Bool) (st : St) :
    ((initAutotee file wrapOk st).2 = 0 ↔ file ≠ none ∧ wrapOk = true) ∧
    ((initAutotee file wrapOk st).2 ≠ 0 → (initAutotee file wrapOk st).2 = -1) ∧
    ((initAutotee file wrapOk st).1.teeFILE = .opened ↔ file ≠ none) ∧
    (∀ fd, file = some fd → (initAutotee file wrapOk st).1.teeFd = fd) ∧
    (initAutotee file wrapOk st).1.out = st.out := by
  cases file with
  | none => simp [initAutotee]
  | some fd => cases wrapOk <;> simp [initAutotee]

/-- C67: what holds after closing: calls for other channels, and write to descriptor 1, behave as
without the tool. -/
theorem C67_other_calls_after_close {O : Outside} (hr : SmallFwrite O) {st st' : St} (ho : st.teeFILE = .opened)
    (hc : closeAutotee st = .ok st') (c : Call) (ht : target c ≠ .file .stdout) :
    wrapped O c st' = direct O c st' := by
  have hfd : st'.teeFd = -1 := by
    unfold closeAutotee at hc; rw [ho] at hc; cases hc; rfl
  cases c with
  | printf t => exact absurd rfl ht
  | vprintf t => exact absurd rfl ht
  | puts s => exact absurd rfl ht
  | fprintf f t =>
    have : f ≠ .stdout := fun e => ht (by rw [e]; rfl)
    simp [wrapped, fprintfWrapper, direct, this]
  | vfprintf f t =>
    have : f ≠ .stdout := fun e => ht (by rw [e]; rfl)
    simp [wrapped, vfprintfWrapper, direct, this]
  | fputs s f =>
    have : f ≠ .stdout := fun e => ht (by rw [e]; rfl)
    simp [wrapped, fputsWrapper, direct, this]
  | fwrite d f =>
    have : f ≠ .stdout := fun e => ht (by rw [e]; rfl)
    simp only [wrapped, fwriteWrapper, direct, bind, Except.bind, ne_eq, this, not_false_eq_true, if_true]
    cases h : io O .fwrite (.file f) d st' with
    | error e => rfl
    | ok x => simp only [io_small hr h]
  | write fd d =>
    by_cases h1 : fd = 1
    · subst h1; simp [wrapped, writeWrapper, direct, hfd, bind, Except.bind]
    · simp [wrapped, writeWrapper, direct, h1]

/-- Open, then close. -/
example : ∃ st', closeAutotee (initAutotee (some 5) true fresh).1 = .ok st' ∧
    wrapped accept (.puts [97]) st' = .error .uninit :=
  ⟨_, rfl, C67_output_after_close_refuted (st := (initAutotee (some 5) true fresh).1) accept rfl rfl _ rfl⟩

/-- C66, its limit: when descriptor 1 accepts only a part and the application writes the rest again, as
it must, descriptor 1 gets the data once but the copy gets the rest twice. -/
theorem C66_short_write_refuted {O : Outside} {st : St} (hm : st.teeFd ≠ -1) (h1 : st.teeFd ≠ 1)
    (d e : List UInt8) (hs : (O .write (.fd 1) (st.uses (.fd 1)) (d ++ e)).1 = d.length)
    (hs2 : e.length ≤ (O .write (.fd 1) (st.uses (.fd 1) + 1) e).1)
    (ht : ∀ k x, x.length ≤ (O .write (.fd st.teeFd) k x).1) :
    ∃ st' rs, runCalls (wrapped O) [.write 1 (d ++ e), .write 1 e] st = .ok (st', rs) ∧
      st'.out (.fd 1) = st.out (.fd 1) ++ (d ++ e) ∧
      st'.out (.fd st.teeFd) = st.out (.fd st.teeFd) ++ (d ++ e) ++ e := by
  have hn1 : ¬ (1 : Int) = st.teeFd := fun e => h1 e.symm
  have hne : ∀ (n : Int) (s : St), ¬ (Chan.fd n = .file .tee ∧ s.teeFILE ≠ .opened) := by
    rintro n s ⟨e, -⟩; cases e
  refine ⟨_, _, by
    simp only [runCalls, wrapped, writeWrapper, bind, Except.bind, io, hm, ne_eq, not_true_eq_false, if_false,
      not_false_eq_true, if_true, reduceCtorEq, false_and]
    rfl, ?_, ?_⟩
  · simp [upd, hn1, hs, List.take_of_length_le hs2]
  · simp [upd, h1, List.take_of_length_le (ht _ _)]

example : ∃ O : Outside, (O .write (.fd 1) 0 ([97] ++ [98])).1 = [97].length ∧
    [98].length ≤ (O .write (.fd 1) 1 [98]).1 ∧ ∀ k x, x.length ≤ (O .write (.fd 5) k x).1 :=
  ⟨fun _ ch _ d => if ch = .fd 1 then (1, 1) else (d.length, d.length), rfl, by decide,
    fun k x => by simp⟩

/-- Opened, closed, closed again. -/
example : ∃ st', closeAutotee (initAutotee (some 5) true fresh).1 = .ok st' ∧ closeAutotee st' = .error .uninit := by
  obtain ⟨st', h⟩ : ∃ st', closeAutotee (initAutotee (some 5) true fresh).1 = .ok st' := ⟨_, rfl⟩
  exact ⟨st', h, C67_close_twice_refuted rfl h⟩

end Gotcha.Autotee
