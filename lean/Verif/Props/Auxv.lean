import Verif.Proof.Auxv
/-
Properties of the auxiliary vector, the page size and the detection of the vdso (C55-C57, C59-C61).
-/
namespace Gotcha.Props
open Gotcha Gotcha.Auxv Gotcha.Spec.Auxv

/-! ### C55: the auxiliary vector -/

/-- A vector: AT_PAGESZ 4096, AT_SYSINFO_EHDR 0x7fff0000, an entry of another type, AT_PAGESZ 65536. -/
def sampleVector : List (Nat × Nat) := [(6, 4096), (33, 0x7fff0000), (3, 64), (6, 65536)]

theorem sampleVector_ok : EntriesOk sampleVector := by
  intro e he
  simp only [sampleVector, List.mem_cons, List.not_mem_nil, or_false] at he
  rcases he with rfl | rfl | rfl | rfl <;> decide

/-- What is found does not depend on how the file is read. -/
theorem C55_vector {es : List (Nat × Nat)} {tail : List UInt8} {sched : List Ev} (hes : EntriesOk es)
    (hlen : es.length < 256) (hs : NoErrors sched) :
    parseAuxv AuxState.init (some ⟨auxBytes es tail, sched⟩) =
      .ok ({ parsed := 1, ehdr := (lastOf 33 es).getD 0,
             pagesz := ((lastOf 6 es).map (· % 2 ^ 32)).getD 0 }, 0) := by
  rcases parseAuxv_spec (tail := tail) (sched := sched) hes hlen with h | h
  · exact absurd hs h.2
  · exact h

/-- The page size that the rest of the library sees, and sees again on later calls whatever the file
contains then. -/
theorem C55_pagesize {es : List (Nat × Nat)} {tail : List UInt8} {sched : List Ev} (hes : EntriesOk es)
    (hlen : es.length < 256) (hs : NoErrors sched) :
    ∃ pgs st, getpagesize 0 AuxState.init (some ⟨auxBytes es tail, sched⟩) = .ok (pgs, st, pageSizeOf es) ∧
      ∀ st' file, getpagesize pgs st' file = .ok (pgs, st', pageSizeOf es) := by
  have h := C55_vector (tail := tail) hes hlen hs
  have hne : pageSizeOf es ≠ 0 := by
    unfold pageSizeOf
    split
    · decide
    · split
      · decide
      · assumption
  refine ⟨pageSizeOf es, ⟨1, (lastOf 33 es).getD 0, ((lastOf 6 es).map (· % 2 ^ 32)).getD 0⟩, ?_, ?_⟩
  · unfold getpagesize auxvPagesize
    rw [if_neg (by simp), h]
    simp only
    unfold pageSizeOf
    cases lastOf 6 es with
    | none => rfl
    | some v => rfl
  · intro st' file
    unfold getpagesize
    rw [if_pos hne]

example : EntriesOk sampleVector ∧ sampleVector.length < 256 ∧
    NoErrors [.short 2, .eintr, .short 0, .eintr] ∧ lastOf 33 sampleVector = some 0x7fff0000 ∧
    pageSizeOf sampleVector = 65536 :=
  ⟨sampleVector_ok, by decide, by unfold NoErrors; decide, by decide, by decide⟩

/-- With read errors the page size is the one of the vector or 4096; without the file it is 4096. -/
theorem C55_errors {es : List (Nat × Nat)} {tail : List UInt8} {sched : List Ev} (hes : EntriesOk es)
    (hlen : es.length < 256) :
    (∃ st p, getpagesize 0 AuxState.init (some ⟨auxBytes es tail, sched⟩) = .ok (p, st, p) ∧
      (p = pageSizeOf es ∨ p = 4096)) ∧
    ∃ st, getpagesize 0 AuxState.init none = .ok (4096, st, 4096) := by
  constructor
  · rcases parseAuxv_spec (tail := tail) (sched := sched) hes hlen with h | h
    · refine ⟨⟨-1, 0, 0⟩, 4096, ?_, Or.inr rfl⟩
      unfold getpagesize auxvPagesize
      rw [if_neg (by simp), h.1]
      rfl
    · refine ⟨⟨1, (lastOf 33 es).getD 0, ((lastOf 6 es).map (· % 2 ^ 32)).getD 0⟩, pageSizeOf es, ?_,
        Or.inl rfl⟩
      unfold getpagesize auxvPagesize
      rw [if_neg (by simp), h]
      simp only
      unfold pageSizeOf
      cases lastOf 6 es with
      | none => rfl
      | some v => rfl
  · exact ⟨⟨-1, 0, 0⟩, rfl⟩

example : ∃ st p, getpagesize 0 AuxState.init (some ⟨auxBytes sampleVector [], [.short 2, .fail, .eintr]⟩) = .ok (p, st, p) ∧
    (p = 65536 ∨ p = 4096) :=
  (C55_errors (tail := []) (sched := [.short 2, .fail, .eintr]) sampleVector_ok (by decide)).1

theorem scan_parsed {b : Buf} : ∀ {n i st st'}, scan b n i st = .ok st' → st'.parsed = st.parsed := by
  intro n
  induction n with
  | zero => intro i st st' h; cases h
  | succ n ih =>
    intro i st st' h
    rw [scan] at h
    split at h
    · cases h
    · split at h
      · cases h; rfl
      · split at h
        · split at h
          · cases h
          · rw [ih h]
        · split at h
          · split at h
            · cases h
            · rw [ih h]
          · exact ih h

theorem parseLoop_parsed : ∀ {n b off f st st'}, parseLoop n b off f st = .ok (some st') →
    st'.parsed = st.parsed := by
  intro n
  induction n with
  | zero => intro b off f st st' h; cases h
  | succ n ih =>
    intro b off f st st' h
    rw [parseLoop] at h
    split at h
    · cases h
    · cases h
    · split at h
      · cases h
      · next hs => cases h; exact scan_parsed hs
    · split at h
      · cases h
      · next hs => rw [ih h, scan_parsed hs]

/-- The file is read once: a later call, whatever the file contains then, gives the same answer, success
or failure, and the same values. -/
theorem C55_once {file : Option File} {st : AuxState} {r : Int}
    (h : parseAuxv AuxState.init file = .ok (st, r)) :
    (r = 0 ∨ r = -1) ∧ ∀ file', parseAuxv st file' = .ok (st, r) ∧
      auxvPagesize st file' = .ok (st, if r = 0 then st.pagesz else 0) := by
  have key : (st.parsed = 1 ∧ r = 0) ∨ (st.parsed = -1 ∧ r = -1) := by
    unfold parseAuxv at h
    rw [if_neg (by decide)] at h
    split at h
    · cases h; exact Or.inr ⟨rfl, rfl⟩
    · split at h
      · cases h
      · cases h; exact Or.inr ⟨rfl, rfl⟩
      · next hp => cases h; exact Or.inl ⟨parseLoop_parsed hp, rfl⟩
  rcases key with ⟨h1, rfl⟩ | ⟨h1, rfl⟩
  · refine ⟨Or.inl rfl, fun file' => ?_⟩
    have : parseAuxv st file' = .ok (st, 0) := by
      unfold parseAuxv
      rw [if_pos (by rw [h1]; decide), if_neg (by rw [h1]; decide)]
    exact ⟨this, by unfold auxvPagesize; rw [this]; rfl⟩
  · refine ⟨Or.inr rfl, fun file' => ?_⟩
    have : parseAuxv st file' = .ok (st, -1) := by
      unfold parseAuxv
      rw [if_pos (by rw [h1]; decide), if_pos h1]
    exact ⟨this, by unfold auxvPagesize; rw [this]; rfl⟩

example : ∃ st r, parseAuxv AuxState.init (some ⟨auxBytes sampleVector [], [.short 2, .eintr]⟩) =
    .ok (st, r) :=
  ⟨_, _, C55_vector sampleVector_ok (by decide) (by unfold NoErrors; decide)⟩

/-- The loop over the entries relies on the terminator: when the file has none in its first 4096 bytes,
bytes behind the entries are read. -/
theorem C55_unterminated {es : List (Nat × Nat)} {tail : List UInt8} {sched : List Ev}
    (hes : EntriesOk es) (hs : NoErrors sched) (h : es.length = 256 ∨ (es.length < 256 ∧ tail = [])) :
    ∃ e, parseAuxv AuxState.init (some ⟨es.flatMap entryBytes ++ tail, sched⟩) = .error e ∧
      (e = .outOfBounds ∨ e = .uninit) := by
  rcases parseAuxv_any (es.flatMap entryBytes ++ tail) sched with h' | h'
  · exact absurd hs h'.2
  · have hle : (es.flatMap entryBytes).length ≤ bufferLen := by
      rw [entries_length]
      show _ ≤ 4096
      omega
    have htake : (es.flatMap entryBytes ++ tail).take bufferLen = es.flatMap entryBytes := by
      rw [List.take_append, List.take_of_length_le hle]
      rcases h with h | ⟨h, rfl⟩
      · rw [entries_length, h]
        simp [bufferLen]
      · simp
    rw [htake] at h'
    have hholds : Holds ((es.flatMap entryBytes).map some ++ freshBuf.drop (es.flatMap entryBytes).length)
        (16 * 0) (es.flatMap entryBytes) := holds_prefix0
    have hidx : ((es.flatMap entryBytes).map some ++
        freshBuf.drop (es.flatMap entryBytes).length)[16 * (0 + es.length)]? =
        freshBuf[16 * es.length]? := by
      rw [List.getElem?_append_right (by rw [List.length_map, entries_length]; omega),
        List.length_map, entries_length, List.getElem?_drop]
      congr 1
      omega
    rcases h with h | ⟨h, _⟩
    · refine ⟨.outOfBounds, ?_, Or.inl rfl⟩
      rw [h', scan_beyond es 257 0 _ .outOfBounds hes (by omega) hholds (cells_outside (by
        rw [hidx, h]
        unfold freshBuf bufferLen
        rw [List.getElem?_eq_none (by rw [List.length_replicate])]))]
    · refine ⟨.uninit, ?_, Or.inr rfl⟩
      rw [h', scan_beyond es 257 0 _ .uninit hes (by omega) hholds (cells_uninit (by
        rw [hidx]
        unfold freshBuf bufferLen
        rw [List.getElem?_replicate, if_pos (by omega)]))]

example : EntriesOk (List.replicate 256 (7, 1)) ∧ (List.replicate 256 (7, 1)).length = 256 :=
  ⟨fun e he => by rw [(List.mem_replicate.mp he).2]; decide, List.length_replicate⟩

/-! ### C56: detection of the vdso -/

theorem isVdso_checked {st : VdsoState} (h : st.checked = true) (o : Outside) (m : Addr) :
    isVdso st o (some m) = .ok (st, decide (some m = st.vdso)) := by
  unfold isVdso
  simp only
  rw [if_pos h]

theorem answers_checked {st : VdsoState} (h : st.checked = true) : ∀ (qs : List (Outside × Option Addr)),
    answers st qs = .ok (qs.map fun q => match q.2 with
      | none => false
      | some m => decide (some m = st.vdso))
  | [] => rfl
  | (o, none) :: qs => by
    rw [answers]
    have : isVdso st o none = .ok (st, false) := rfl
    rw [this]
    simp only
    rw [answers_checked h qs]
    rfl
  | (o, some m) :: qs => by
    rw [answers, isVdso_checked h]
    simp only
    rw [answers_checked h qs]
    rfl

/-- After its first query the answer is settled. -/
theorem isVdso_settles {st st' : VdsoState} {o : Outside} {m : Addr} {a : Bool}
    (h : isVdso st o (some m) = .ok (st', a)) :
    st'.checked = true ∧ a = decide (some m = st'.vdso) := by
  unfold isVdso at h
  simp only at h
  split at h
  · rename_i hc
    cases h
    exact ⟨hc, rfl⟩
  · have he : ∀ (r : Addr), decide (m = r) = decide (some m = some r) := by
      intro r
      simp
    split at h
    · cases h
      exact ⟨rfl, he _⟩
    · split at h
      · cases h
      · cases h
        exact ⟨rfl, he _⟩
      · split at h
        · cases h
        · cases h
          exact ⟨rfl, he _⟩
        · cases h
          exact ⟨rfl, by simp⟩

/-- Over any history of queries, with any changes of the link map and of the files between them, the
answers are those for one fixed link map (or none). -/
theorem C56_stable : ∀ {qs : List (Outside × Option Addr)} {as : List Bool},
    answers VdsoState.init qs = .ok as →
    ∃ v : Option Addr, as = qs.map fun q => match q.2 with
      | none => false
      | some m => decide (some m = v)
  | [], as, h => by
    cases h
    exact ⟨none, rfl⟩
  | (o, none) :: qs, as, h => by
    rw [answers] at h
    have : isVdso VdsoState.init o none = .ok (VdsoState.init, false) := rfl
    rw [this] at h
    simp only at h
    split at h
    · cases h
    · rename_i as' hq
      cases h
      obtain ⟨v, rfl⟩ := C56_stable hq
      exact ⟨v, rfl⟩
  | (o, some m) :: qs, as, h => by
    rw [answers] at h
    split at h
    · cases h
    · rename_i st' a hv
      obtain ⟨hc, ha⟩ := isVdso_settles hv
      rw [answers_checked hc] at h
      cases h
      exact ⟨st'.vdso, by rw [ha]; rfl⟩

theorem find_first {p : LinkMap → Prop} {f : LinkMap → Bool} (hf : ∀ m, f m = true ↔ p m) :
    ∀ {maps : List LinkMap} {m : LinkMap}, FirstWith p maps m → maps.find? f = some m := by
  intro maps m ⟨pre, post, e, hm, hpre⟩
  subst e
  rw [List.find?_append]
  rw [List.find?_eq_none.mpr (fun x hx => by rw [hf]; exact hpre x hx)]
  rw [List.find?_cons, (hf m).mpr hm]
  rfl

theorem find_nowhere {p : LinkMap → Prop} {f : LinkMap → Bool} (hf : ∀ m, f m = true ↔ p m)
    {maps : List LinkMap} (h : ∀ m ∈ maps, ¬ p m) : maps.find? f = none :=
  List.find?_eq_none.mpr (fun x hx => by rw [hf]; exact h x hx)

theorem alias_iff (m : LinkMap) : (match m.name with
    | none => false
    | some n => aliases.any (fun a => n == a)) = true ↔ VdsoName m := by
  unfold VdsoName aliases
  cases m.name with
  | none => simp
  | some n => simp

theorem dynamicOf_eq : ∀ (phs : List Phdr) (d : Addr), dynamicOf phs d =
    match phs.reverse.find? (fun p => p.type = 2) with
    | none => d
    | some p => p.vaddr
  | [], d => rfl
  | p :: ps, d => by
    rw [dynamicOf, dynamicOf_eq ps, List.reverse_cons, List.find?_append]
    cases hq : ps.reverse.find? (fun p => decide (p.type = 2)) with
    | some q => rfl
    | none =>
      simp only [Option.none_or]
      rw [List.find?_cons]
      by_cases hp : p.type = 2
      · rw [if_pos hp, decide_eq_true hp]
      · rw [if_neg hp, decide_eq_false hp]
        rfl

/-- First the names are tried, whatever the files say. -/
theorem C56_by_name {o : Outside} {m : LinkMap} (h : FirstWith VdsoName o.maps m) (x : Addr) :
    ∃ st, isVdso VdsoState.init o (some x) = .ok (st, decide (x = m.lm)) := by
  have : vdsoFromAliases o.maps = some m := find_first alias_iff h
  unfold isVdso
  simp only
  rw [if_neg (by decide), this]
  exact ⟨_, rfl⟩

theorem vdsoFromAuxv_eq {o : Outside} {es : List (Nat × Nat)} {tail : List UInt8} {sched : List Ev}
    (ha : o.auxv = some ⟨auxBytes es tail, sched⟩) (hes : EntriesOk es) (hlen : es.length < 256)
    (hs : NoErrors sched) : ∃ st, vdsoFromAuxv AuxState.init o.auxv o.image o.maps = .ok (st,
      if (lastOf 33 es).getD 0 = 0 then none
      else o.maps.find? (fun m => m.addr + lastDynamic (o.image ((lastOf 33 es).getD 0)) == m.ld)) := by
  unfold vdsoFromAuxv
  rw [ha, C55_vector hes hlen hs]
  simp only
  by_cases h0 : (lastOf 33 es).getD 0 = 0
  · rw [if_neg (by simp [h0]), if_pos h0]
    exact ⟨_, rfl⟩
  · rw [if_pos h0, if_neg h0]
    have : dynamicOf (o.image ((lastOf 33 es).getD 0)) 0 =
        lastDynamic (o.image ((lastOf 33 es).getD 0)) := by
      rw [dynamicOf_eq]
      rfl
    rw [this]
    exact ⟨_, rfl⟩

theorem dyn_iff (d : Addr) (m : LinkMap) : (m.addr + d == m.ld) = true ↔ DynamicAt d m := by
  unfold DynamicAt
  rw [beq_iff_eq]
  exact eq_comm

/-- Then the auxiliary vector: the first link map with its dynamic section at the offset at which the
vdso image has its own. -/
theorem C56_by_auxv {o : Outside} {es : List (Nat × Nat)} {tail : List UInt8} {sched : List Ev}
    {v : Nat} {m : LinkMap} (hno : ∀ l ∈ o.maps, ¬ VdsoName l)
    (ha : o.auxv = some ⟨auxBytes es tail, sched⟩) (hes : EntriesOk es) (hlen : es.length < 256)
    (hs : NoErrors sched) (hv : lastOf 33 es = some v) (h0 : v ≠ 0)
    (hm : FirstWith (DynamicAt (lastDynamic (o.image v))) o.maps m) (x : Addr) :
    ∃ st, isVdso VdsoState.init o (some x) = .ok (st, decide (x = m.lm)) := by
  obtain ⟨st, h⟩ := vdsoFromAuxv_eq ha hes hlen hs
  rw [hv, Option.getD_some, if_neg h0, find_first (dyn_iff _) hm] at h
  unfold isVdso
  simp only
  have hn : vdsoFromAliases o.maps = none := find_nowhere alias_iff hno
  rw [if_neg (by decide), hn]
  simp only
  rw [show VdsoState.init.aux = AuxState.init from rfl, h]
  exact ⟨_, rfl⟩

/-- Then the lines of /proc/self/maps. -/
theorem C56_by_maps {o : Outside} {es : List (Nat × Nat)} {tail : List UInt8} {sched sched' : List Ev}
    {ls : List MapLine} (hno : ∀ l ∈ o.maps, ¬ VdsoName l)
    (ha : o.auxv = none ∨ (o.auxv = some ⟨auxBytes es tail, sched⟩ ∧ EntriesOk es ∧ es.length < 256 ∧
      NoErrors sched ∧ ((lastOf 33 es).getD 0 = 0 ∨
        ∀ l ∈ o.maps, ¬ DynamicAt (lastDynamic (o.image ((lastOf 33 es).getD 0))) l)))
    (hl : ∀ l ∈ ls, l.Ok) (hs : Quiet sched')
    (hm : o.mapsFile = some ⟨ls.flatMap MapLine.bytes, sched'⟩) (x : Addr) :
    ∃ st, isVdso VdsoState.init o (some x) =
      .ok (st, decide (some x = (vdsoByLines ls o.maps).map (·.lm))) := by
  have haux : ∃ st, vdsoFromAuxv AuxState.init o.auxv o.image o.maps = .ok (st, none) := by
    rcases ha with ha | ⟨ha, hes, hlen, hse, h0 | h0⟩
    · rw [ha]
      exact ⟨_, rfl⟩
    · obtain ⟨st, h⟩ := vdsoFromAuxv_eq ha hes hlen hse
      rw [if_pos h0] at h
      exact ⟨st, h⟩
    · obtain ⟨st, h⟩ := vdsoFromAuxv_eq ha hes hlen hse
      rw [find_nowhere (dyn_iff _) h0, ite_self] at h
      exact ⟨st, h⟩
  obtain ⟨st, haux⟩ := haux
  unfold isVdso
  simp only
  have hn : vdsoFromAliases o.maps = none := find_nowhere alias_iff hno
  rw [if_neg (by decide), hn]
  simp only
  rw [show VdsoState.init.aux = AuxState.init from rfl, haux]
  simp only
  rw [hm, vdsoFromMaps_spec hl hs]
  cases vdsoByLines ls o.maps with
  | none => exact ⟨⟨true, none, st⟩, by simp⟩
  | some r => exact ⟨⟨true, some r.lm, st⟩, by simp⟩

/-! ### C57: the lines of /proc/self/maps -/

/-- `7fff0000-7fff2000 r-xp 00000000 00:00 0   [vdso]`. -/
def sampleLine : MapLine :=
  ⟨nm "7fff0000", nm "7fff2000", nm "r-xp", nm "00000000", nm "00:00", nm "0", nm "   ", nm "[vdso]"⟩

/-- `00400000-00452000 r-xp 00000000 08:02 173521 /usr/my prog`. -/
def otherLine : MapLine :=
  ⟨nm "00400000", nm "00452000", nm "r-xp", nm "00000000", nm "08:02", nm "173521", nm " ",
    nm "/usr/my prog"⟩

theorem hexDigits_of {w : Name} (h : w.all (fun c => (List.range 16).any fun d =>
    c == Spec.Printf.digitChar false d) = true) : HexDigits w := by
  intro c hc
  have := List.all_eq_true.mp h c hc
  obtain ⟨d, hd, e⟩ := List.any_eq_true.mp this
  exact ⟨false, d, List.mem_range.mp hd, beq_iff_eq.mp e⟩

theorem word_of {w : Name} (h : w ≠ [])
    (h2 : w.all (fun c => c != 32 && c != 9 && c != 10 && c != 0) = true) : Word w := by
  refine ⟨h, fun c hc => ?_⟩
  have := List.all_eq_true.mp h2 c hc
  simp only [Bool.and_eq_true, bne_iff_ne] at this
  obtain ⟨⟨⟨a, b⟩, d⟩, e⟩ := this
  exact ⟨fun hb => by rcases hb with hb | hb | hb <;> contradiction, e⟩

theorem sampleLine_ok : sampleLine.Ok where
  lo := hexDigits_of (by decide +kernel)
  hi := hexDigits_of (by decide +kernel)
  perms := word_of (by decide +kernel) (by decide +kernel)
  offset := word_of (by decide +kernel) (by decide +kernel)
  dev := word_of (by decide +kernel) (by decide +kernel)
  inode := word_of (by decide +kernel) (by decide +kernel)
  pad := by decide +kernel
  sep := by decide +kernel
  name := by decide +kernel
  start := by
    intro c hc
    have : sampleLine.name.head? = some 91 := by decide +kernel
    rw [this] at hc
    cases hc
    rintro (h | h | h) <;> exact absurd h (by decide)
  length := by decide +kernel

theorem otherLine_ok : otherLine.Ok where
  lo := hexDigits_of (by decide +kernel)
  hi := hexDigits_of (by decide +kernel)
  perms := word_of (by decide +kernel) (by decide +kernel)
  offset := word_of (by decide +kernel) (by decide +kernel)
  dev := word_of (by decide +kernel) (by decide +kernel)
  inode := word_of (by decide +kernel) (by decide +kernel)
  pad := by decide +kernel
  sep := by decide +kernel
  name := by decide +kernel
  start := by
    intro c hc
    have : otherLine.name.head? = some 47 := by decide +kernel
    rw [this] at hc
    cases hc
    rintro (h | h | h) <;> exact absurd h (by decide)
  length := by decide +kernel

/-- One line, wherever the line buffer holds it: both addresses and the name (its first word), and no
byte outside the line is looked at. -/
theorem C57_line {l : MapLine} (hl : l.Ok) {rest name : Buf} (hn : name.length = bufferLen) :
    ∃ name', parseLine ((l.bytes ++ [0]).map some ++ rest) name =
        .ok (some (BitVec.ofNat 64 (hexVal l.lo), BitVec.ofNat 64 (hexVal l.hi), name')) ∧
      bufStr name' (bufferLen + 1) 0 = .ok l.word := by
  obtain ⟨name', h1, _, h2⟩ := parseLine_spec hl (holds_prefix0 (t := rest)) hn
  exact ⟨name', h1, h2⟩

example : ∃ name', parseLine ((otherLine.bytes ++ [0]).map some ++ [none, some 9]) (List.replicate bufferLen none) =
      .ok (some (0x400000, 0x452000, name')) ∧ bufStr name' (bufferLen + 1) 0 = .ok (nm "/usr/my") := by
  obtain ⟨name', h1, h2⟩ := C57_line otherLine_ok (rest := [none, some 9]) (name := List.replicate bufferLen none)
    List.length_replicate
  refine ⟨name', ?_, ?_⟩
  · rw [h1, show BitVec.ofNat 64 (hexVal otherLine.lo) = 0x400000 by decide +kernel,
      show BitVec.ofNat 64 (hexVal otherLine.hi) = 0x452000 by decide +kernel]
  · rw [h2, show otherLine.word = nm "/usr/my" by decide +kernel]

/-- A whole file: the vdso is looked up in the first mapping called `[vdso]`. -/
theorem C57_file {ls : List MapLine} {sched : List Ev} {maps : List LinkMap}
    (hok : ∀ l ∈ ls, l.Ok) (hq : Quiet sched) :
    vdsoFromMaps (some ⟨ls.flatMap MapLine.bytes, sched⟩) maps = .ok (vdsoByLines ls maps) :=
  vdsoFromMaps_spec hok hq

/-- A link map list: the program (unnamed), a library, and the vdso with its dynamic section in the
mapping of `sampleLine`. -/
def sampleMaps : List LinkMap :=
  [⟨0x100, 0, 0x600e28, some []⟩, ⟨0x200, 0x7f0000, 0x9f0dc0, some (nm "libc.so.6")⟩,
   ⟨0x300, 0x7fff0000, 0x7fff03e0, none⟩]

example : (∀ l ∈ [otherLine, sampleLine], l.Ok) ∧ Quiet [.short 0, .short 7] ∧
    otherLine.word = nm "/usr/my" ∧ sampleLine.word = nm "[vdso]" ∧ hexVal sampleLine.lo = 0x7fff0000 ∧
    (vdsoByLines [otherLine, sampleLine] sampleMaps).map (·.lm) = some 0x300 := by
  refine ⟨?_, ?_, by decide +kernel, by decide +kernel, by decide +kernel, by decide +kernel⟩
  · intro l hl
    simp only [List.mem_cons, List.not_mem_nil, or_false] at hl
    rcases hl with rfl | rfl
    · exact otherLine_ok
    · exact sampleLine_ok
  · intro e he
    simp only [List.mem_cons, List.not_mem_nil, or_false] at he
    rcases he with rfl | rfl
    · exact ⟨_, rfl⟩
    · exact ⟨_, rfl⟩

/-- The three ways of C56 with their hypotheses met. -/
theorem sample_by_name : FirstWith VdsoName
    (sampleMaps ++ [⟨0x400, 0, 0, some (nm "linux-gate.so")⟩]) ⟨0x400, 0, 0, some (nm "linux-gate.so")⟩ := by
  refine ⟨sampleMaps, [], rfl, Or.inr rfl, ?_⟩
  intro x hx
  simp only [sampleMaps, List.mem_cons, List.not_mem_nil, or_false] at hx
  unfold VdsoName
  rcases hx with rfl | rfl | rfl <;> decide +kernel

example (x : Addr) : ∃ st, isVdso VdsoState.init
    ⟨sampleMaps ++ [⟨0x400, 0, 0, some (nm "linux-gate.so")⟩], none, none, fun _ => []⟩ (some x) =
    .ok (st, decide (x = 0x400)) :=
  C56_by_name (o := ⟨_, none, none, fun _ => []⟩) sample_by_name x

theorem sample_no_name : ∀ l ∈ sampleMaps, ¬ VdsoName l := by
  intro x hx
  simp only [sampleMaps, List.mem_cons, List.not_mem_nil, or_false] at hx
  unfold VdsoName
  rcases hx with rfl | rfl | rfl <;> decide +kernel

/-- The vdso image of the sample: one PT_LOAD and one PT_DYNAMIC header. -/
def sampleImage : Nat → List Phdr := fun _ => [⟨1, 0⟩, ⟨2, 0x3e0⟩]

example : FirstWith (DynamicAt (lastDynamic (sampleImage 0x7fff0000))) sampleMaps
    ⟨0x300, 0x7fff0000, 0x7fff03e0, none⟩ := by
  refine ⟨sampleMaps.take 2, [], rfl, by unfold DynamicAt; decide +kernel, ?_⟩
  intro x hx
  simp only [sampleMaps, List.take_succ_cons, List.take_zero, List.mem_cons, List.not_mem_nil,
    or_false] at hx
  unfold DynamicAt
  rcases hx with rfl | rfl <;> decide +kernel

example (x : Addr) : ∃ st, isVdso VdsoState.init
    ⟨sampleMaps, none, some ⟨[otherLine, sampleLine].flatMap MapLine.bytes, []⟩, sampleImage⟩ (some x) =
    .ok (st, decide (x = 0x300)) := by
  obtain ⟨st, h⟩ := C56_by_maps (es := []) (tail := []) (sched := []) (ls := [otherLine, sampleLine])
    (sched' := []) (o := ⟨sampleMaps, none, some ⟨[otherLine, sampleLine].flatMap MapLine.bytes, []⟩,
      sampleImage⟩) sample_no_name (Or.inl rfl) (by
        intro l hl
        simp only [List.mem_cons, List.not_mem_nil, or_false] at hl
        rcases hl with rfl | rfl
        · exact otherLine_ok
        · exact sampleLine_ok) (by intro e he; cases he) rfl x
  refine ⟨st, ?_⟩
  rw [h]
  have : (vdsoByLines [otherLine, sampleLine] sampleMaps).map (·.lm) = some 0x300 := by decide +kernel
  rw [this]
  congr 2
  simp

/-! ### C59: reads of /proc/self/maps that are interrupted -/

/-- An interruption at the start of a line makes the parser read a byte that nobody wrote. -/
theorem C59_interrupted_line_refuted {l : MapLine} {ls : List MapLine} {sched : List Ev}
    {maps : List LinkMap} (hl : l.Ok) (hq : Quiet sched) :
    vdsoFromMaps (some ⟨(l :: ls).flatMap MapLine.bytes, .eintr :: sched⟩) maps = .error .uninit := by
  obtain ⟨s, e1, e2⟩ := bytes_split hl
  have hlen := hl.length
  have hls : s.length + 1 < 4096 := by
    rw [e1] at hlen
    simpa using hlen
  have hstep : readLineLoop (bufferLen - 1) 0 freshBuf
      ⟨(l :: ls).flatMap MapLine.bytes, .eintr :: sched⟩ =
      readLineLoop (bufferLen - 2) 1 freshBuf ⟨(l :: ls).flatMap MapLine.bytes, sched⟩ := by
    rw [show bufferLen - 1 = (bufferLen - 2) + 1 from rfl, readLineLoop]
    rfl
  have hfresh : freshBuf[0]? = some none := by
    unfold freshBuf bufferLen
    rw [List.getElem?_replicate, if_pos (by decide)]
  have hfin : ∃ b f, readLineLoop (bufferLen - 2) 1 freshBuf
      ⟨(l :: ls).flatMap MapLine.bytes, sched⟩ = .ok (b, f, true) := by
    have key : ∀ (s : List UInt8) (n i : Nat) (b : Buf) (f : File) (rest : List UInt8),
        Quiet f.sched → f.bytes = s ++ 10 :: rest → i + n + 1 ≤ b.length →
        ∃ b' f', readLineLoop n i b f = .ok (b', f', true) := by
      intro s
      induction s with
      | nil =>
        intro n i b f rest hq hb hn
        cases n with
        | zero =>
          rw [readLineLoop]
          unfold setCell
          rw [if_pos (by omega)]
          exact ⟨_, _, rfl⟩
        | succ n =>
          obtain ⟨sch, hq', hr⟩ := read_quiet (c := 10) (rest := rest) hq hb
          rw [readLineLoop, hr]
          simp only
          unfold setCell
          rw [if_pos (by omega)]
          simp only [if_true]
          rw [if_pos (by rw [List.length_set]; omega)]
          exact ⟨_, _, rfl⟩
      | cons c s ih =>
        intro n i b f rest hq hb hn
        cases n with
        | zero =>
          rw [readLineLoop]
          unfold setCell
          rw [if_pos (by omega)]
          exact ⟨_, _, rfl⟩
        | succ n =>
          obtain ⟨sch, hq', hr⟩ := read_quiet (c := c) (rest := s ++ 10 :: rest) hq hb
          rw [readLineLoop, hr]
          simp only
          unfold setCell
          rw [if_pos (by omega)]
          simp only
          split
          · rw [if_pos (by rw [List.length_set]; omega)]
            exact ⟨_, _, rfl⟩
          · exact ih n (i + 1) _ ⟨s ++ 10 :: rest, sch⟩ rest hq' rfl (by
              rw [List.length_set]
              omega)
    refine key s _ _ _ _ (ls.flatMap MapLine.bytes) hq ?_ ?_
    · simp only [List.flatMap_cons]
      rw [e1]
      simp
    · have : freshBuf.length = bufferLen := List.length_replicate
      rw [this]
      show 1 + (4096 - 2) + 1 ≤ 4096
      omega
  obtain ⟨b, f, hfin⟩ := hfin
  have h0 := readLineLoop_keeps _ _ _ _ hfin (j := 0) (by omega)
  rw [hfresh] at h0
  have hp : parseLine b freshBuf = .error .uninit := by
    unfold parseLine readHex
    rw [readHexLoop]
    unfold cell
    rw [h0]
    rfl
  unfold vdsoFromMaps
  simp only
  obtain ⟨k, hk⟩ : ∃ k, (⟨(l :: ls).flatMap MapLine.bytes, .eintr :: sched⟩ : File).fuel = k + 1 :=
    ⟨_, rfl⟩
  rw [hk, mapsLoop]
  unfold readLine
  rw [hstep, hfin]
  simp only
  rw [hp]

example : sampleLine.Ok ∧ Quiet [] := ⟨sampleLine_ok, by intro e he; cases he⟩

/-! ### C60: what the auxiliary vector finds need not be the vdso -/

/-- A library that comes before the vdso in the link map and has its dynamic section at the same offset
is taken for the vdso, and the vdso itself is not. -/
theorem C60_lookalike_refuted {o : Outside} {es : List (Nat × Nat)} {tail : List UInt8}
    {sched : List Ev} {v : Nat} {pre post : List LinkMap} {lib vdso : LinkMap}
    (hno : ∀ l ∈ o.maps, ¬ VdsoName l)
    (ha : o.auxv = some ⟨auxBytes es tail, sched⟩) (hes : EntriesOk es) (hlen : es.length < 256)
    (hs : NoErrors sched) (hv : lastOf 33 es = some v) (h0 : v ≠ 0)
    (hmaps : o.maps = pre ++ lib :: post)
    (hpre : ∀ x ∈ pre, ¬ DynamicAt (lastDynamic (o.image v)) x)
    (hlib : DynamicAt (lastDynamic (o.image v)) lib) (hvdso : vdso.lm ≠ lib.lm) :
    (∃ st, isVdso VdsoState.init o (some lib.lm) = .ok (st, true)) ∧
    ∃ st, isVdso VdsoState.init o (some vdso.lm) = .ok (st, false) := by
  have h := C56_by_auxv hno ha hes hlen hs hv h0 ⟨pre, post, hmaps, hlib, hpre⟩
  constructor
  · obtain ⟨st, h⟩ := h lib.lm
    exact ⟨st, by rw [h, decide_eq_true rfl]⟩
  · obtain ⟨st, h⟩ := h vdso.lm
    exact ⟨st, by rw [h, decide_eq_false hvdso]⟩

/-- A library at 0x7f0000 with its dynamic section at 0x7f03e0, and the vdso behind it. -/
def lookalikeWorld : Outside where
  maps := [⟨0x100, 0, 0x600e28, some []⟩, ⟨0x200, 0x7f0000, 0x7f03e0, some (nm "libtiny.so")⟩,
    ⟨0x300, 0x7fff0000, 0x7fff03e0, some (nm "linux-vdso.so.1")⟩]
  auxv := some ⟨auxBytes sampleVector [], []⟩
  mapsFile := none
  image := sampleImage

/-- In that world the two answers are wrong.  The name that glibc gives the vdso, `linux-vdso.so.1`, is
not one of the aliases. -/
theorem C60_witness :
    (∃ st, isVdso VdsoState.init lookalikeWorld (some 0x200) = .ok (st, true)) ∧
    ∃ st, isVdso VdsoState.init lookalikeWorld (some 0x300) = .ok (st, false) := by
  refine C60_lookalike_refuted (o := lookalikeWorld) (es := sampleVector) (tail := []) (sched := [])
    (v := 0x7fff0000) (pre := [⟨0x100, 0, 0x600e28, some []⟩])
    (lib := ⟨0x200, 0x7f0000, 0x7f03e0, some (nm "libtiny.so")⟩)
    (vdso := ⟨0x300, 0x7fff0000, 0x7fff03e0, some (nm "linux-vdso.so.1")⟩)
    (post := [⟨0x300, 0x7fff0000, 0x7fff03e0, some (nm "linux-vdso.so.1")⟩]) ?_ rfl
    sampleVector_ok (by decide) (by unfold NoErrors; decide) (by decide) (by decide) rfl ?_ ?_ ?_
  · intro x hx
    simp only [lookalikeWorld, List.mem_cons, List.not_mem_nil, or_false] at hx
    unfold VdsoName
    rcases hx with rfl | rfl | rfl <;> decide +kernel
  · intro x hx
    rw [List.mem_singleton] at hx
    subst hx
    unfold DynamicAt
    decide +kernel
  · unfold DynamicAt
    decide +kernel
  · decide +kernel

/-! ### C61: lines that end early -/

theorem readWord_end {b : Buf} {i : Nat} (h : Holds b i [10, 0]) :
    readWord b i none 0 = .error .nullDeref := by
  have hl := holds_length h (by simp)
  unfold readWord
  rw [skipBlanks_spec [10] (b.length + 1) i 0 0 [] (by
    intro x hx
    rw [List.mem_singleton] at hx
    exact Or.inr (Or.inr hx)) (by rintro (h | h | h) <;> exact absurd h (by decide)) h (by
      simp only [List.length_cons, List.length_nil] at hl ⊢; omega)]
  simp only [Nat.zero_add]
  rw [show [(10 : UInt8)].length = 1 from rfl, cell_holds h.2]
  rfl

/-- A line with fewer than four words after the addresses makes `read_word` write through a null
pointer. -/
theorem C61_short_line_refuted {lo hi : Name} {ws : List Name} {rest name : Buf}
    (hlo : HexDigits lo) (hhi : HexDigits hi) (hw : ∀ w ∈ ws, Word w) (hk : ws.length < 4) :
    parseLine ((lo ++ 45 :: hi ++ ws.flatMap (fun w => 32 :: w) ++ [10, 0]).map some ++ rest) name =
      .error .nullDeref := by
  have hb : Holds ((lo ++ 45 :: hi ++ ws.flatMap (fun w => 32 :: w) ++ [10, 0]).map some ++ rest) 0
    (lo ++ 45 :: hi ++ ws.flatMap (fun w => 32 :: w) ++ [10, 0]) := holds_prefix0
  generalize (lo ++ 45 :: hi ++ ws.flatMap (fun w => 32 :: w) ++ [10, 0]).map some ++ rest = b at hb
  simp only [List.append_assoc, List.cons_append] at hb
  have sp : ∀ x ∈ [(32 : UInt8)], Blank x := by
    intro x hx
    rw [List.mem_singleton] at hx
    exact Or.inl hx
  have es : Ends 32 := Or.inl (Or.inl rfl)
  have en : Ends 10 := Or.inl (Or.inr (Or.inr rfl))
  have h1 := readHex_spec hlo hexDigit_dash hb
  obtain ⟨_, h2⟩ := holds_append.mp hb
  rw [Nat.zero_add] at h2
  have hdash := cell_holds h2
  have h3 := h2.2
  obtain ⟨_, h5⟩ := holds_append.mp h3
  have lw : ∀ w : Name, [(32 : UInt8)].length + w.length = (32 :: w).length := fun w => by
    simp only [List.length_cons, List.length_nil]; omega
  have h4 : readHex b (lo.length + 1) = .ok (BitVec.ofNat 64 (hexVal hi), hi.length) := by
    cases ws with
    | nil => exact readHex_spec hhi (c := 10) (by decide) h3
    | cons w ws => exact readHex_spec hhi (c := 32) (by decide) h3
  unfold parseLine
  rw [h1]
  simp only [bind, Except.bind, pure, Except.pure]
  rw [hdash]
  simp only [ne_eq, not_true, if_false]
  rw [h4]
  simp only
  cases ws with
  | nil => rw [readWord_end h5]
  | cons w1 ws =>
    have a1 := (holds_append (s := 32 :: w1)).mp (by
      rw [List.flatMap_cons, List.append_assoc] at h5; exact h5)
    have b1 : readWord b (lo.length + 1 + hi.length) none 0 = .ok ((32 :: w1).length, none) := by
      rw [← lw]
      cases ws with
      | nil => exact readWord_none (bl := [32]) (rest := [0]) sp (hw _ (by simp)) en (by simpa using h5)
      | cons w ws =>
        rw [List.flatMap_cons, List.flatMap_cons] at h5
        simp only [List.append_assoc, List.cons_append] at h5
        exact readWord_none (bl := [32]) sp (hw _ (by simp)) es h5
    rw [b1]
    simp only
    cases ws with
    | nil => rw [readWord_end a1.2]
    | cons w2 ws =>
      have a2 := (holds_append (s := 32 :: w2)).mp (by
        have := a1.2
        rw [List.flatMap_cons, List.append_assoc] at this; exact this)
      have b2 : readWord b (lo.length + 1 + hi.length + (32 :: w1).length) none 0 =
          .ok ((32 :: w2).length, none) := by
        have h := a1.2
        rw [← lw w2]
        cases ws with
        | nil => exact readWord_none (bl := [32]) (rest := [0]) sp (hw _ (by simp)) en (by simpa using h)
        | cons w ws =>
          rw [List.flatMap_cons, List.flatMap_cons] at h
          simp only [List.append_assoc, List.cons_append] at h
          exact readWord_none (bl := [32]) sp (hw _ (by simp)) es h
      rw [b2]
      simp only
      cases ws with
      | nil => rw [readWord_end a2.2]
      | cons w3 ws =>
        have a3 := (holds_append (s := 32 :: w3)).mp (by
          have := a2.2
          rw [List.flatMap_cons, List.append_assoc] at this; exact this)
        have hnil : ws = [] := by
          cases ws with
          | nil => rfl
          | cons w ws => simp at hk; omega
        subst hnil
        have b3 : readWord b (lo.length + 1 + hi.length + (32 :: w1).length + (32 :: w2).length) none 0 =
            .ok ((32 :: w3).length, none) := by
          rw [← lw w3]
          exact readWord_none (bl := [32]) (rest := [0]) sp (hw _ (by simp)) en (by simpa using a2.2)
        rw [b3]
        simp only
        rw [readWord_end a3.2]

/-- The end of a name longer than the line buffer is read as a line of its own: `bad-cafe`, say. -/
example : HexDigits (nm "bad") ∧ HexDigits (nm "cafe") ∧ ([] : List Name).length < 4 :=
  ⟨hexDigits_of (by decide +kernel), hexDigits_of (by decide +kernel), by decide⟩

end Gotcha.Props
