import Verif.Proof.Number
/-
Lemmas about `gotcha_int_printf`.
-/
namespace Gotcha.Printf
open Gotcha Gotcha.LibC Gotcha.Spec.Printf

/-- What is printed for a message `r` at position `i`. -/
def mang (r : Name) (i : Nat) : Option UInt8 := if i % 4096 = 0 then r[0]? else r[i]?

/-- The state after the characters `r` have been added. -/
structure Inv (st : PState) (r : Name) : Prop where
  flushed : ∃ k : Nat, st.printed = (4096 * k : Nat) ∧ r.length = 4096 * k + st.pos ∧
    st.out.length = 4096 * k ∧ (k ≠ 0 → 1 ≤ st.pos) ∧
    (∀ i < 4096 * k, st.out[i]? = mang r i) ∧
    (∀ i < st.pos, st.buf[i]? = mang r (4096 * k + i))
  pos : st.pos ≤ 4096
  size : st.buf.length = 4096
  flat : st.writes.flatten = st.out
  full : ∀ w ∈ st.writes, w.length = 4096

theorem mang_append {r : Name} {c : UInt8} {i : Nat} (h : i < r.length) :
    mang (r ++ [c]) i = mang r i := by
  unfold mang
  rw [List.getElem?_append_left h, List.getElem?_append_left (by omega)]

theorem addChar_inv {st : PState} {r : Name} (h : Inv st r) (c : UInt8)
    (hl : r.length < 2 ^ 31 - 1) : ∃ st', addChar st c = .ok st' ∧ Inv st' (r ++ [c]) := by
  obtain ⟨k, h1, h2, h3, h4, h5, h6⟩ := h.flushed
  have hp := h.pos
  have hsz := h.size
  unfold addChar
  by_cases hfull : st.pos ≥ 4096
  · have hpos : st.pos = 4096 := by omega
    rw [if_pos hfull, h1]
    have hi : int32 (((4096 * k : Nat) : Int) + 4096) = .ok (((4096 * (k + 1) : Nat) : Int)) := by
      unfold int32
      rw [if_pos (by omega)]
      congr 1
    rw [hi]
    refine ⟨_, rfl, ?_, by show 0 + 1 ≤ 4096; omega, hsz, by simp [h.flat], by
      intro w hw
      rcases List.mem_append.1 hw with hw | hw
      · exact h.full w hw
      · rw [List.mem_singleton.1 hw, List.length_take, hsz]; rfl⟩
    refine ⟨k + 1, rfl, ?_, ?_, ?_, ?_, ?_⟩
    · simp only [List.length_append, List.length_singleton]; omega
    · simp only [List.length_append, List.length_take, hsz]; omega
    · intro _; show 1 ≤ 0 + 1; omega
    · intro i hi
      rw [mang_append (by omega)]
      show (st.out ++ st.buf.take 4096)[i]? = _
      by_cases hlt : i < 4096 * k
      · rw [List.getElem?_append_left (by omega)]
        exact h5 i hlt
      · rw [List.getElem?_append_right (by omega), h3, List.getElem?_take_of_lt (by omega)]
        rw [h6 (i - 4096 * k) (by omega), show 4096 * k + (i - 4096 * k) = i by omega]
    · intro i hi
      have hi0 : i = 0 := by
        have : i < 0 + 1 := hi
        omega
      subst hi0
      have hb := h6 0 (by omega)
      show st.buf[0]? = _
      rw [hb]
      unfold mang
      rw [if_pos (by omega), if_pos (by omega), List.getElem?_append_left (by omega)]
  · rw [if_neg hfull, setAt, if_pos (by omega)]
    refine ⟨_, rfl, ?_, by show st.pos + 1 ≤ 4096; omega, by simp [hsz], h.flat, h.full⟩
    refine ⟨k, h1, ?_, h3, ?_, ?_, ?_⟩
    · simp only [List.length_append, List.length_singleton]; omega
    · intro _; show 1 ≤ st.pos + 1; omega
    · intro i hi
      rw [mang_append (by omega)]
      exact h5 i hi
    · intro i hi
      have hi' : i < st.pos + 1 := hi
      show (st.buf.set st.pos c)[i]? = _
      by_cases hip : i = st.pos
      · subst hip
        rw [List.getElem?_set_self (by omega)]
        unfold mang
        by_cases hm : (4096 * k + st.pos) % 4096 = 0
        · have hk : k = 0 := by
            by_contra hk
            have := h4 hk
            omega
          have : st.pos = 0 := by omega
          have hr : r = [] := by
            apply List.eq_nil_of_length_eq_zero
            rw [h2, hk, this]
          rw [if_pos hm, hr]
          rfl
        · rw [if_neg hm, ← h2, List.getElem?_append_right (le_refl _)]
          simp
      · rw [List.getElem?_set_ne (fun h => hip h.symm), mang_append (by omega)]
        exact h6 i (by omega)

theorem addAll_nil (st : PState) : addAll [] st = .ok st := rfl

theorem addAll_cons (c : UInt8) (s : Name) (st : PState) : addAll (c :: s) st =
    match addChar st c with
    | .error f => .error f
    | .ok st' => addAll s st' := by
  unfold addAll
  rw [addToBuffer]
  simp only [Bool.true_or, if_true]
  cases addChar st c <;> rfl

theorem addAll_inv : ∀ (s : Name) {st : PState} {r : Name}, Inv st r →
    r.length + s.length < 2 ^ 31 → ∃ st', addAll s st = .ok st' ∧ Inv st' (r ++ s)
  | [], st, r, h, _ => ⟨st, rfl, by rw [List.append_nil]; exact h⟩
  | c :: s, st, r, h, hl => by
    simp only [List.length_cons] at hl
    obtain ⟨st1, h1, h2⟩ := addChar_inv h c (by omega)
    obtain ⟨st2, h3, h4⟩ := addAll_inv s h2 (by simp; omega)
    refine ⟨st2, ?_, by rw [List.append_assoc] at h4; exact h4⟩
    rw [addAll_cons, h1]
    exact h3

theorem loop_text {junk : Name → List UInt8} {n : Nat} {c : UInt8} (hc : c ≠ 37) (f : Name)
    (args : List Arg) (st : PState) : printfLoop junk (n + 1) (c :: f) args st =
    match addChar st c with
    | .error e => .error e
    | .ok st' => printfLoop junk (n + 1) f args st' := by
  rw [printfLoop, if_neg (by simp), addToBuffer]
  simp only [Bool.false_or, ne_eq, hc, not_false_eq_true, decide_true, if_true]
  cases addChar st c with
  | error e => rfl
  | ok st' =>
    simp only
    cases f with
    | nil => rfl
    | cons d f => rw [printfLoop, if_neg (by simp)]

theorem loop_dir {junk : Name → List UInt8} {n : Nat} {w : Width} {c : UInt8} {rest f : Name}
    (hw : width rest = (w, c :: f)) (args : List Arg) (st : PState) :
    printfLoop junk (n + 1) (37 :: rest) args st =
    match convert (junk f) w c args st with
    | .error e => .error e
    | .ok (args', st') => if f = [] then .ok st' else printfLoop junk n f args' st' := by
  rw [printfLoop, if_neg (by simp), addToBuffer]
  simp only [Bool.false_or, ne_eq, not_true_eq_false, decide_false, Bool.false_eq_true, if_false]
  cases rest with
  | nil => simp [width] at hw
  | cons d rest =>
    simp only [hw]
    cases convert (junk f) w c args st with
    | error e => rfl
    | ok r => rfl

/-- The model's width flag of a size modifier. -/
def ofSize : Size → Width
  | .hh => .char
  | .h => .short
  | .int => .none
  | .l => .long
  | .ll => .longLong
  | .z => .size

theorem width_size (w : Size) {c : UInt8} (f : Name) (h1 : c ≠ 104) (h2 : c ≠ 108) (h3 : c ≠ 122) :
    width (w.text ++ c :: f) = (ofSize w, c :: f) := by
  cases w <;> simp [Size.text, width, ofSize, h1, h2, h3]

theorem signedArg_eq (w : Size) (x : BitVec 64) :
    (signedArg (ofSize w) x).toInt = (x.setWidth w.bits).toInt := by
  cases w <;> simp only [ofSize, signedArg, Size.bits]
  · exact BitVec.toInt_signExtend_of_le (by decide)
  · exact BitVec.toInt_signExtend_of_le (by decide)
  · exact BitVec.toInt_signExtend_of_le (by decide)
  all_goals rw [BitVec.setWidth_eq]

theorem unsignedArg_eq (w : Size) (x : BitVec 64) :
    (unsignedArg (ofSize w) x).toNat = (x.setWidth w.bits).toNat := by
  cases w <;> simp only [ofSize, unsignedArg, Size.bits]
  · exact BitVec.toNat_setWidth_of_le (by decide)
  · exact BitVec.toNat_setWidth_of_le (by decide)
  · exact BitVec.toNat_setWidth_of_le (by decide)
  all_goals rw [BitVec.setWidth_eq]

theorem integer_nonzero (z : Int) : ∀ c ∈ integer z, c ≠ 0 := by
  unfold integer
  split
  · exact numeral_nonzero (by omega) (by omega) _
  · intro c hc
    rcases List.mem_cons.mp hc with rfl | hc
    · decide
    · exact numeral_nonzero (by omega) (by omega) _ c hc

/-- The directives (all pieces but text). -/
def Piece.IsDir : Piece → Prop
  | .text _ => False
  | _ => True

/-- One directive: its text is parsed, its arguments are consumed, and its rendering is added. -/
theorem convert_piece {junk : List UInt8} (hj : junk.length = 64) {p : Piece} (hd : Piece.IsDir p)
    (hok : p.Ok) (f : Name) : ∃ w c rest, p.format ++ f = 37 :: rest ∧ width rest = (w, c :: f) ∧
      ∀ args st, convert junk w c (p.args ++ args) st =
        match addAll p.render st with
        | .error e => .error e
        | .ok st' => .ok (args, st') := by
  cases p with
  | text s => exact absurd hd id
  | percent =>
    refine ⟨.none, 37, 37 :: f, rfl, rfl, ?_⟩
    intro args st
    rfl
  | signed w i x =>
    refine ⟨ofSize w, if i then 105 else 100, _, rfl, ?_, ?_⟩
    · show width ((w.text ++ _) ++ f) = _
      rw [List.append_assoc]
      cases i
      · exact width_size w f (by decide) (by decide) (by decide)
      · exact width_size w f (by decide) (by decide) (by decide)
    · intro args st
      have hcond : ((if i then 105 else 100 : UInt8) = 100 ∨ (if i then 105 else 100 : UInt8) = 105) := by
        cases i <;> simp
      have hmin : signedArg (ofSize w) x ≠ BitVec.intMin 64 := by
        intro hc
        have h1 := signedArg_eq w x
        rw [hc] at h1
        apply hok
        rw [← h1]
        rfl
      obtain ⟨rest, hr⟩ := slongToStr_spec (signedArg (ofSize w) x) 64 junk (by omega) (by omega) hmin
      unfold convert
      rw [if_pos hcond]
      simp only [Piece.args, List.singleton_append, hr, addNum,
        cstrOf_append _ rest (integer_nonzero _), Piece.render, signedArg_eq]
      cases addAll (integer (x.setWidth w.bits).toInt) st <;> rfl
  | unsigned w x =>
    refine ⟨ofSize w, 117, _, rfl, ?_, ?_⟩
    · show width ((w.text ++ _) ++ f) = _
      rw [List.append_assoc]
      exact width_size w f (by decide) (by decide) (by decide)
    · intro args st
      have hr := ulongToStr_spec (unsignedArg (ofSize w) x) 0 64 junk (by omega) (by omega)
      rw [List.take_zero, List.nil_append, unsignedArg_eq] at hr
      unfold convert
      rw [if_neg (by decide), if_pos rfl]
      simp only [Piece.args, List.singleton_append, hr, addNum,
        cstrOf_append _ _ (numeral_nonzero (u := false) (b := 10) (by omega) (by omega) _),
        Piece.render]
      cases addAll (numeral false 10 (x.setWidth w.bits).toNat) st <;> rfl
  | hex w upper x =>
    refine ⟨ofSize w, if upper then 88 else 120, _, rfl, ?_, ?_⟩
    · show width ((w.text ++ _) ++ f) = _
      rw [List.append_assoc]
      cases upper
      · exact width_size w f (by decide) (by decide) (by decide)
      · exact width_size w f (by decide) (by decide) (by decide)
    · intro args st
      have hr := ulongToHexstr_spec upper (unsignedArg (ofSize w) x) 64 junk (by omega) (by omega)
      rw [unsignedArg_eq] at hr
      have hup : decide ((if upper then 88 else 120 : UInt8) = 88) = upper := by cases upper <;> rfl
      unfold convert
      rw [if_neg (by cases upper <;> decide), if_neg (by cases upper <;> decide),
        if_pos (by cases upper <;> decide)]
      have hne : (if upper then 88 else 120 : UInt8) ≠ 112 := by cases upper <;> decide
      simp only [Piece.args, List.singleton_append, if_pos hne, hup, hr, addNum,
        cstrOf_append _ _ (numeral_nonzero (u := upper) (b := 16) (by omega) (by omega) _),
        Piece.render]
      cases addAll (numeral upper 16 (x.setWidth w.bits).toNat) st <;> rfl
  | ptr x =>
    refine ⟨.none, 112, 112 :: f, rfl, rfl, ?_⟩
    intro args st
    have hr := ulongToHexstr_spec false x 64 junk (by omega) (by omega)
    unfold convert
    rw [if_neg (by decide), if_neg (by decide), if_pos (by decide)]
    have hf : decide ((112 : UInt8) = 88) = false := by decide
    simp only [Piece.args, List.singleton_append, ne_eq, not_true_eq_false, if_false, hf, hr, addNum,
      cstrOf_append _ _ (numeral_nonzero (u := false) (b := 16) (by omega) (by omega) _),
      Piece.render]
    rw [List.cons_append, List.cons_append, List.nil_append]
    rw [addAll_cons, addAll_cons]
    cases h1 : addChar st 48 with
    | error e => simp
    | ok st1 =>
      simp only
      rw [addAll_cons]
      rw [addAll_cons]
      cases h2 : addChar st1 120 with
      | error e => simp
      | ok st2 =>
        simp only [addAll_nil]
        cases addAll (numeral false 16 x.toNat) st2 <;> rfl
  | chr x =>
    refine ⟨.none, 99, 99 :: f, rfl, rfl, ?_⟩
    intro args st
    have hne : UInt8.ofNat (x.toNat % 256) ≠ 0 := by
      intro hc
      have := congrArg UInt8.toNat hc
      rw [UInt8.toNat_ofNat'] at this
      have h0 : (0 : UInt8).toNat = 0 := rfl
      have hok' : x.toNat % 256 ≠ 0 := hok
      omega
    unfold convert
    rw [if_neg (by decide), if_neg (by decide), if_neg (by decide), if_pos rfl]
    simp only [Piece.args, List.singleton_append, if_neg hne, Piece.render]
    cases addAll [UInt8.ofNat (x.toNat % 256)] st <;> rfl
  | str s =>
    refine ⟨.none, 115, 115 :: f, rfl, rfl, ?_⟩
    intro args st
    unfold convert
    rw [if_neg (by decide), if_neg (by decide), if_neg (by decide), if_neg (by decide), if_pos rfl]
    simp only [Piece.args, List.singleton_append, Piece.render]
    cases addAll s st <;> rfl
  | other w c =>
    obtain ⟨_, hc⟩ := hok
    simp only [List.mem_cons, List.not_mem_nil, or_false, not_or] at hc
    obtain ⟨h1, h2, h3, h4, h5, h6, h7, h8, h9, h10, h11, h12⟩ := hc
    refine ⟨ofSize w, c, _, rfl, ?_, ?_⟩
    · show width ((w.text ++ _) ++ f) = _
      rw [List.append_assoc]
      exact width_size w f h10 h11 h12
    · intro args st
      unfold convert
      rw [if_neg (by simp [h1, h2]), if_neg h3, if_neg (by simp [h4, h5, h6]), if_neg h7, if_neg h8,
        if_neg h9]
      simp only [Piece.args, List.nil_append, Piece.render]
      cases addAll [37, c] st <;> rfl

theorem loop_pieces {junk : Name → List UInt8} (hj : ∀ f, (junk f).length = 64) (extra : List Arg) :
    ∀ (ps : List Piece) (n : Nat) {st : PState} {r : Name}, (∀ p ∈ ps, p.Ok) →
      (format ps).length < n → Inv st r → r.length + (render ps).length < 2 ^ 31 →
      ∃ st', printfLoop junk n (format ps) (args ps ++ extra) st = .ok st' ∧
        Inv st' (r ++ render ps)
  | [], n + 1, st, r, _, _, h, _ => by
    refine ⟨st, ?_, by simpa [render] using h⟩
    simp [format, printfLoop]
  | p :: ps, n, st, r, hok, hn, h, hl => by
    have hokp := hok p (List.mem_cons_self ..)
    have hokps := fun q hq => hok q (List.mem_cons_of_mem p hq)
    have ef : format (p :: ps) = p.format ++ format ps := rfl
    have ea : args (p :: ps) = p.args ++ args ps := rfl
    have er : render (p :: ps) = p.render ++ render ps := rfl
    rw [ef, ea, er]
    rw [er] at hl
    rw [ef] at hn
    simp only [List.length_append] at hl hn
    by_cases hd : Piece.IsDir p
    · obtain ⟨w, c, rest, h1, h2, h3⟩ := convert_piece (hj (format ps)) hd hokp (format ps)
      have hlen : 2 ≤ p.format.length := by
        cases p <;> simp [Piece.format] at hd ⊢
        · exact absurd hd id
      obtain ⟨n, rfl⟩ : ∃ k, n = k + 1 := ⟨n - 1, by omega⟩
      obtain ⟨st1, g1, g2⟩ := addAll_inv p.render h (by omega)
      obtain ⟨st2, g3, g4⟩ := loop_pieces hj extra ps n hokps (by omega) g2
        (by simp only [List.length_append]; omega)
      refine ⟨st2, ?_, by rw [List.append_assoc] at g4; exact g4⟩
      rw [h1, loop_dir h2, List.append_assoc, h3, g1]
      simp only
      split
      · next he =>
        rw [he] at g3
        cases n with
        | zero => rw [printfLoop] at g3; cases g3
        | succ n => rw [printfLoop, if_pos rfl] at g3; exact g3
      · exact g3
    · cases p with
      | text s =>
        clear hok hd ef ea er
        -- character by character
        have key : ∀ (s : Name) {st : PState} {r : Name}, (∀ c ∈ s, c ≠ 37 ∧ c ≠ 0) → Inv st r →
            r.length + (s.length + (render ps).length) < 2 ^ 31 → (format ps).length < n →
            ∃ st', printfLoop junk n (s ++ format ps) (args ps ++ extra) st = .ok st' ∧
              Inv st' (r ++ (s ++ render ps)) := by
          intro s
          induction s with
          | nil =>
            intro st r _ hi hl hn
            exact loop_pieces hj extra ps n hokps hn hi (by simpa using hl)
          | cons c s ih =>
            intro st r hs hi hl hn
            simp only [List.length_cons] at hl
            obtain ⟨st1, g1, g2⟩ := addChar_inv hi c (by omega)
            obtain ⟨st2, g3, g4⟩ := ih (fun x hx => hs x (List.mem_cons_of_mem _ hx)) g2
              (by simp only [List.length_append, List.length_singleton]; omega) hn
            refine ⟨st2, ?_, by simpa using g4⟩
            obtain ⟨n, rfl⟩ : ∃ k, n = k + 1 := ⟨n - 1, by omega⟩
            rw [List.cons_append, loop_text (hs c (List.mem_cons_self ..)).1, g1]
            exact g3
        exact key s hokp h (by simpa [Piece.render] using hl) (by omega)
      | _ => exact absurd trivial hd

theorem Inv.init {buf : List UInt8} (h : buf.length = 4096) :
    Inv { pos := 0, buf, printed := 0, out := [] } [] where
  flushed := ⟨0, rfl, rfl, rfl, fun h => absurd rfl h, by intro i hi; omega, by
    intro i hi; exact absurd hi (Nat.not_lt_zero i)⟩
  pos := by show 0 ≤ 4096; omega
  size := h
  flat := rfl
  full := fun _ h => absurd h List.not_mem_nil

theorem Inv.final {st : PState} {r : Name} (h : Inv st r) (hl : r.length < 2 ^ 31) :
    int32 (st.printed + st.pos) = .ok (r.length : Int) ∧
    (st.out ++ st.buf.take st.pos).length = r.length ∧
    ∀ i < r.length, (st.out ++ st.buf.take st.pos)[i]? = mang r i := by
  obtain ⟨k, h1, h2, h3, h4, h5, h6⟩ := h.flushed
  have hp := h.pos
  have hsz := h.size
  refine ⟨?_, ?_, ?_⟩
  · rw [h1]
    unfold int32
    rw [if_pos (by omega), h2]
    congr 1
  · simp only [List.length_append, List.length_take, hsz]
    omega
  · intro i hi
    by_cases hlt : i < 4096 * k
    · rw [List.getElem?_append_left (by omega)]
      exact h5 i hlt
    · rw [List.getElem?_append_right (by omega), h3, List.getElem?_take_of_lt (by omega),
        h6 (i - 4096 * k) (by omega)]
      congr 1
      omega

/-- A `%s` whose argument is NULL is read through. -/
theorem loop_null {junk : Name → List UInt8} (hj : ∀ f, (junk f).length = 64) (tail : Name)
    (extra : List Arg) :
    ∀ (ps : List Piece) (n : Nat) {st : PState} {r : Name}, (∀ p ∈ ps, p.Ok) →
      (format ps).length < n → Inv st r → r.length + (render ps).length < 2 ^ 31 →
      printfLoop junk n (format ps ++ 37 :: 115 :: tail) (args ps ++ .null :: extra) st =
        .error .nullDeref
  | [], n + 1, st, r, _, _, h, _ => by
    simp [format, args, printfLoop, addToBuffer, width, convert]
  | p :: ps, n, st, r, hok, hn, h, hl => by
    have hokp := hok p (List.mem_cons_self ..)
    have hokps := fun q hq => hok q (List.mem_cons_of_mem p hq)
    have ef : format (p :: ps) = p.format ++ format ps := rfl
    have ea : args (p :: ps) = p.args ++ args ps := rfl
    have er : render (p :: ps) = p.render ++ render ps := rfl
    rw [ef, ea]
    rw [er] at hl
    rw [ef] at hn
    simp only [List.length_append] at hl hn
    by_cases hd : Piece.IsDir p
    · obtain ⟨w, c, rest, h1, h2, h3⟩ := convert_piece (hj (format ps ++ 37 :: 115 :: tail)) hd hokp
        (format ps ++ 37 :: 115 :: tail)
      have hlen : 2 ≤ p.format.length := by
        cases p <;> simp [Piece.format] at hd ⊢
        · exact absurd hd id
      obtain ⟨n, rfl⟩ : ∃ k, n = k + 1 := ⟨n - 1, by omega⟩
      obtain ⟨st1, g1, g2⟩ := addAll_inv p.render h (by omega)
      have g3 := loop_null hj tail extra ps n hokps (by omega) g2
        (by simp only [List.length_append]; omega)
      rw [List.append_assoc, h1, loop_dir h2, List.append_assoc, h3, g1]
      simp only
      rw [if_neg (by simp)]
      exact g3
    · cases p with
      | text s =>
        clear hok hd ef ea er
        have key : ∀ (s : Name) {st : PState} {r : Name}, (∀ c ∈ s, c ≠ 37 ∧ c ≠ 0) → Inv st r →
            r.length + (s.length + (render ps).length) < 2 ^ 31 → (format ps).length < n →
            printfLoop junk n (s ++ (format ps ++ 37 :: 115 :: tail)) (args ps ++ .null :: extra) st =
              .error .nullDeref := by
          intro s
          induction s with
          | nil =>
            intro st r _ hi hl hn
            exact loop_null hj tail extra ps n hokps hn hi (by simpa using hl)
          | cons c s ih =>
            intro st r hs hi hl hn
            simp only [List.length_cons] at hl
            obtain ⟨st1, g1, g2⟩ := addChar_inv hi c (by omega)
            have g3 := ih (fun x hx => hs x (List.mem_cons_of_mem _ hx)) g2
              (by simp only [List.length_append, List.length_singleton]; omega) hn
            obtain ⟨n, rfl⟩ : ∃ k, n = k + 1 := ⟨n - 1, by omega⟩
            rw [List.cons_append, loop_text (hs c (List.mem_cons_self ..)).1, g1]
            exact g3
        rw [List.append_assoc]
        exact key s hokp h (by simpa [Piece.render] using hl) (by omega)
      | _ => exact absurd trivial hd

end Gotcha.Printf
