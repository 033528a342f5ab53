import Verif.Proof.ElfHash
import Verif.Proof.Relocs
import Verif.Demo.Gnu
/-
C49-C51: symbol lookup through the GNU and SysV hash sections.
-/
namespace Gotcha.Props
open Gotcha Elf Spec

variable {img : Image} {d : DynInfo} {syms : List DynSym} {off nb mw : Nat}

/-! ### C49 -/

/-- C49, for the names that the code can look up: those whose hash, computed with signed characters as
`gnu_hash_func` does, selects the right bucket and the right hash value. -/
theorem C49_gnu_lookup (hs : Syms img d syms) (ht : GnuTable img d.gnuHash syms off nb mw)
    (n : Name) (hb : signedHash n % nb = gnuHash n % nb) (hv : signedHash n / 2 = gnuHash n / 2) :
    ∃ r, lookupGnu img d n = .ok r ∧ Newest syms off (d.versym ≠ 0) n r ∧
      (d.versym = 0 → ∀ w, r = some w → ∀ j, j < w.toNat → ¬ Defines syms off False n j) := by
  obtain ⟨L, hL, hsorted, h⟩ := lookupGnu_spec hs ht n
  rw [gnuHashFunc_eq] at h hL
  have hm : ∀ i, (i ∈ L ∧ (fun j => decide (gnuHash (nameOf syms j) / 2 = signedHash n / 2 ∧
      n = nameOf syms j)) i = true) ↔ off ≤ i ∧ i < syms.length ∧ nameOf syms i = n := by
    intro i
    simp only [hL, decide_eq_true_eq]
    constructor
    · rintro ⟨⟨h1, h2, -⟩, -, h3⟩; exact ⟨h1, h2, h3.symm⟩
    · rintro ⟨h1, h2, h3⟩; rw [h3]; exact ⟨⟨h1, h2, hb.symm⟩, hv.symm, rfl⟩
  refine ⟨_, h, pick_newest hs.short hm, ?_⟩
  intro hv w hw j hj hd
  have hf : decide (d.versym ≠ 0) = false := by simp [hv]
  rw [hf, pick_first] at hw
  obtain ⟨i, hi, rfl⟩ := Option.map_eq_some_iff.1 hw
  have hin : (BitVec.ofNat 32 i).toNat = i := by
    have h1 := ((hL i).1 (List.mem_of_find?_eq_some hi)).2.1
    have h2 := hs.short
    rw [BitVec.toNat_ofNat]; omega
  rw [hin] at hj
  obtain ⟨h1, h2⟩ := (hm j).2 ⟨hd.1, hd.2.1, hd.2.2.1⟩
  rw [List.find?_eq_some_iff_append] at hi
  obtain ⟨-, as, bs, rfl, hno⟩ := hi
  rcases List.mem_append.1 h1 with h3 | h3
  · have := hno j h3
    simp only at h2
    rw [h2] at this
    exact absurd this (by decide)
  · rw [List.pairwise_append] at hsorted
    rcases List.mem_cons.1 h3 with e | h3
    · omega
    · have := (List.pairwise_cons.1 hsorted.2.1).1 j h3
      omega

theorem pick_sat {vs : Bool} {m : Nat → Bool} {ver : Nat → Nat} (L : List Nat) (l : Option Nat) (v i : Nat)
    (h : pick vs m ver L l v = some i) : (i ∈ L ∧ m i = true) ∨ l = some i := by
  induction L generalizing l v with
  | nil => exact Or.inr h
  | cons j L ih =>
    unfold pick at h
    split at h
    · rename_i hm
      split at h
      · split at h
        · rcases ih _ _ h with h1 | h1
          · exact Or.inl ⟨List.mem_cons_of_mem _ h1.1, h1.2⟩
          · cases h1; exact Or.inl ⟨List.mem_cons_self .., hm⟩
        · rcases ih _ _ h with h1 | h1
          · exact Or.inl ⟨List.mem_cons_of_mem _ h1.1, h1.2⟩
          · exact Or.inr h1
      · cases h; exact Or.inl ⟨List.mem_cons_self .., hm⟩
    · rcases ih _ _ h with h1 | h1
      · exact Or.inl ⟨List.mem_cons_of_mem _ h1.1, h1.2⟩
      · exact Or.inr h1

/-- C49: every other name is reported as not defined, whatever the section defines. -/
theorem C49_gnu_missed (hs : Syms img d syms) (ht : GnuTable img d.gnuHash syms off nb mw)
    (n : Name) (hn : ¬ (signedHash n % nb = gnuHash n % nb ∧ signedHash n / 2 = gnuHash n / 2)) :
    lookupGnu img d n = .ok none := by
  obtain ⟨L, hL, -, h⟩ := lookupGnu_spec hs ht n
  rw [gnuHashFunc_eq] at h hL
  rw [h]
  cases hp : pick (decide (d.versym ≠ 0)) (fun j => decide (gnuHash (nameOf syms j) / 2 =
      signedHash n / 2 ∧ n = nameOf syms j)) (verAt syms) L none 0 with
  | none => rfl
  | some i =>
    exfalso
    rcases pick_sat _ _ _ _ hp with ⟨h1, h2⟩ | h1
    · simp only [decide_eq_true_eq] at h2
      have h3 := ((hL i).1 h1).2.2
      obtain ⟨h2, h4⟩ := h2
      rw [← h4] at h2 h3
      exact hn ⟨h3.symm, h2.symm⟩
    · cases h1

/-- C49: names of 7-bit characters are among the names that can be looked up. -/
theorem C49_gnu_lookup_ascii (hs : Syms img d syms) (ht : GnuTable img d.gnuHash syms off nb mw)
    (n : Name) (ha : Ascii n) :
    ∃ r, lookupGnu img d n = .ok r ∧ Newest syms off (d.versym ≠ 0) n r ∧
      (d.versym = 0 → ∀ w, r = some w → ∀ j, j < w.toNat → ¬ Defines syms off False n j) :=
  C49_gnu_lookup hs ht n (by rw [signedHash_ascii ha]) (by rw [signedHash_ascii ha])

/-- C49: names with up to 31 bytes from 0x80 on (any number that is not a multiple of 32) are never
found. -/
theorem C49_non_ascii_missed (hs : Syms img d syms) (ht : GnuTable img d.gnuHash syms off nb mw)
    (n : Name) (hn : highBytes n % 32 ≠ 0) : lookupGnu img d n = .ok none :=
  C49_gnu_missed hs ht n fun h => signedHash_ne hn h.2

/-- The demo section defines "é", two high bytes. -/
example : highBytes Demo.eAcute = 2 ∧ (∃ i, Defines Demo.gsyms 1 True Demo.eAcute i) ∧
    lookupGnu (Demo.gimg true false) (Demo.ginfo true false) Demo.eAcute = .ok none :=
  ⟨by decide, ⟨3, by decide, by decide, rfl, fun _ => by decide⟩,
    C49_non_ascii_missed (Demo.gSyms true false) (Demo.gGnu true false) _ (by decide)⟩

/-- The hypotheses are met by a section of two buckets with a symbol in two versions; the newer one is
found. -/
example : (∃ r, lookupGnu (Demo.gimg true false) (Demo.ginfo true false) (nm "foo") = .ok r ∧
      Newest Demo.gsyms 1 ((Demo.ginfo true false).versym ≠ 0) (nm "foo") r ∧ r ≠ none) ∧
    lookupGnu (Demo.gimg true false) (Demo.ginfo true false) (nm "foo") = .ok (some 2) := by
  have h := C49_gnu_lookup_ascii (Demo.gSyms true false) (Demo.gGnu true false) (nm "foo")
    (by decide +kernel)
  have e : lookupGnu (Demo.gimg true false) (Demo.ginfo true false) (nm "foo") = .ok (some 2) := by
    decide +kernel
  obtain ⟨r, h1, h2, -⟩ := h
  exact ⟨⟨r, h1, h2, by rw [e] at h1; cases h1; simp⟩, e⟩

/-- Without version table the first of the two is found; the third clause of the theorem applies. -/
example : lookupGnu (Demo.gimg false false) (Demo.ginfo false false) (nm "foo") = .ok (some 1) ∧
    (Demo.ginfo false false).versym = 0 := by
  decide +kernel

/-- C49 is false of names with bytes from 0x80 on: `gnu_hash_func` reads them as negative `char`s
(x86-64), the linker as unsigned ones.  On a well-formed section that defines such a name the code
reports that the name is not defined. -/
theorem C49_non_ascii_refuted :
    ∃ (img : Image) (d : DynInfo) (syms : List DynSym) (off nb mw : Nat) (n : Name),
      Syms img d syms ∧ GnuTable img d.gnuHash syms off nb mw ∧
      (∃ i, Defines syms off (d.versym ≠ 0) n i) ∧ lookupGnu img d n = .ok none :=
  ⟨Demo.gimg true false, Demo.ginfo true false, Demo.gsyms, 1, 2, 1, Demo.eAcute,
    Demo.gSyms true false, Demo.gGnu true false,
    ⟨3, by decide, by decide, rfl, fun _ => by decide⟩, by decide +kernel⟩

/-! ### C50 -/

/-- C50: for every name. -/
theorem C50_sysv_lookup (hs : Syms img d syms) (ht : SysvTable img d.elfHash syms nb)
    (n : Name) : ∃ r, lookupElf img d n = .ok r ∧ Newest syms 1 (d.versym ≠ 0) n r := by
  obtain ⟨L, hL, h⟩ := lookupElf_spec hs ht n
  rw [elfHashFunc_eq] at hL
  refine ⟨_, h, pick_newest hs.short ?_⟩
  intro i
  simp only [hL, decide_eq_true_eq]
  constructor
  · rintro ⟨⟨h1, h2, -⟩, h3⟩; exact ⟨h1, h2, h3.symm⟩
  · rintro ⟨h1, h2, h3⟩; rw [h3]; exact ⟨⟨h1, h2, rfl⟩, rfl⟩

example : (∃ r, lookupElf (Demo.gimg true true) (Demo.ginfo true true) Demo.eAcute = .ok r ∧
      Newest Demo.gsyms 1 ((Demo.ginfo true true).versym ≠ 0) Demo.eAcute r) ∧
    lookupElf (Demo.gimg true true) (Demo.ginfo true true) Demo.eAcute = .ok (some 3) ∧
    lookupElf (Demo.gimg true true) (Demo.ginfo true true) (nm "foo") = .ok (some 2) :=
  ⟨C50_sysv_lookup (Demo.gSyms true true) (Demo.gSysv true true) _, by decide +kernel,
    by decide +kernel⟩

/-! ### C51 -/

/-- C51 for the GNU section: for every name, also one whose hash the code computes differently, the
lookup ends without fault.  The image may hold nothing but the tables, and reading anything else is
the fault `outOfBounds`, so nothing else is read.  An index that is returned is in the symbol table. -/
theorem C51_gnu_reads (hs : Syms img d syms) (ht : GnuTable img d.gnuHash syms off nb mw) (n : Name) :
    ∃ r, lookupGnu img d n = .ok r ∧ ∀ w, r = some w → w.toNat < syms.length := by
  obtain ⟨L, hL, -, h⟩ := lookupGnu_spec hs ht n
  refine ⟨_, h, ?_⟩
  intro w hw
  obtain ⟨i, hi, rfl⟩ := Option.map_eq_some_iff.1 hw
  rcases pick_mem _ _ _ _ hi with h1 | h1
  · have h1 := ((hL i).1 h1).2.1
    have h2 := hs.short
    rw [BitVec.toNat_ofNat]; omega
  · cases h1

/-- C51 for the SysV section. -/
theorem C51_sysv_reads (hs : Syms img d syms) (ht : SysvTable img d.elfHash syms nb) (n : Name) :
    ∃ r, lookupElf img d n = .ok r ∧ ∀ w, r = some w → w.toNat < syms.length := by
  obtain ⟨r, h1, h2⟩ := C50_sysv_lookup hs ht n
  exact ⟨r, h1, fun w hw => (h2.2 w hw).1.2.1⟩

example : (∃ r, lookupGnu (Demo.gimg true true) (Demo.ginfo true true) Demo.eAcute = .ok r ∧
      ∀ w, r = some w → w.toNat < Demo.gsyms.length) ∧
    (∃ r, lookupElf (Demo.gimg true true) (Demo.ginfo true true) Demo.eAcute = .ok r ∧
      ∀ w, r = some w → w.toNat < Demo.gsyms.length) :=
  ⟨C51_gnu_reads (Demo.gSyms true true) (Demo.gGnu true true) _,
    C51_sysv_reads (Demo.gSyms true true) (Demo.gSysv true true) _⟩

theorem _root_.Gotcha.Spec.Tables.init (ht : Tables img d syms off) :
    initDynamic img = .ok (some d) := by
  obtain ⟨l, h1, h2, rfl⟩ := ht.dyn
  rw [initDynamic_section h1 h2, dynFold_eq]

/-- C51 for the whole of `lookup_exported_symbol`: on an object with well-formed tables it ends
without fault, for every name. -/
theorem C51_exported_reads (ht : Tables img d syms off) (lAddr : Addr) (n : Name) :
    ∃ r, exported img lAddr n = .ok r := by
  unfold exported
  rw [ht.init]
  simp only
  split
  · exact ⟨_, rfl⟩
  · have h1 : ∃ r1, (if d.gnuHash ≠ 0 then lookupGnu img d n else .ok none) = .ok r1 ∧
        ∀ w, r1 = some w → w.toNat < syms.length := by
      by_cases hg : d.gnuHash = 0
      · exact ⟨none, by simp [hg], by simp⟩
      · obtain ⟨nb, mw, hg'⟩ := ht.gnu hg
        rw [if_pos hg]
        exact C51_gnu_reads ht.tab hg' n
    obtain ⟨r1, e1, b1⟩ := h1
    rw [e1]
    simp only
    have h2 : ∃ r2, (if d.elfHash ≠ 0 ∧ r1 = none then lookupElf img d n else .ok r1) = .ok r2 ∧
        ∀ w, r2 = some w → w.toNat < syms.length := by
      by_cases he : d.elfHash ≠ 0 ∧ r1 = none
      · obtain ⟨nb, he'⟩ := ht.sysv he.1
        rw [if_pos he]
        exact C51_sysv_reads ht.tab he' n
      · exact ⟨r1, by rw [if_neg he], b1⟩
    obtain ⟨r2, e2, b2⟩ := h2
    rw [e2]
    exact ⟨_, exported_step ht.tab b2 lAddr⟩

/-- What `lookup_exported_symbol` answers for an object with a GNU hash section, 7-bit names: the
address of the newest definition among the hashed symbols, or, if there is none and a SysV section
exists, of the newest among all symbols. -/
theorem C49_exported (ht : Tables img d syms off) (hg : d.gnuHash ≠ 0) (lAddr : Addr)
    (n : Name) (ha : Ascii n) :
    ∃ r, exported img lAddr n = .ok (addrOf syms lAddr r) ∧
      ((∃ i, Defines syms off (d.versym ≠ 0) n i) ∨ d.elfHash = 0 →
        Newest syms off (d.versym ≠ 0) n r) ∧
      ((∀ i, ¬ Defines syms off (d.versym ≠ 0) n i) → d.elfHash ≠ 0 →
        Newest syms 1 (d.versym ≠ 0) n r) := by
  obtain ⟨nb, mw, hg'⟩ := ht.gnu hg
  obtain ⟨r1, e1, n1, -⟩ := C49_gnu_lookup_ascii ht.tab hg' n ha
  unfold exported
  rw [ht.init]
  simp only
  rw [if_neg (fun hc => hg hc.1), if_pos hg, e1]
  simp only
  by_cases he : d.elfHash ≠ 0 ∧ r1 = none
  · obtain ⟨nb', he'⟩ := ht.sysv he.1
    obtain ⟨r2, e2, n2⟩ := C50_sysv_lookup ht.tab he' n
    rw [if_pos he, e2]
    refine ⟨r2, exported_step ht.tab (fun w hw => (n2.2 w hw).1.2.1) lAddr, ?_, fun _ _ => n2⟩
    rintro (⟨i, hi⟩ | h0)
    · exact absurd hi (n1.1.1 he.2 i)
    · exact absurd h0 he.1
  · rw [if_neg he]
    refine ⟨r1, exported_step ht.tab (fun w hw => (n1.2 w hw).1.2.1) lAddr, fun _ => n1, ?_⟩
    intro hno h0
    exact absurd ⟨h0, n1.1.2 hno⟩ he

/-- A name that the GNU section cannot find is found through the SysV section, if there is one. -/
theorem C49_exported_non_ascii (ht : Tables img d syms off) (hg : d.gnuHash ≠ 0) (lAddr : Addr)
    (n : Name) (hn : highBytes n % 32 ≠ 0) :
    (d.elfHash = 0 → exported img lAddr n = .ok none) ∧
    (d.elfHash ≠ 0 → ∃ r, exported img lAddr n = .ok (addrOf syms lAddr r) ∧
      Newest syms 1 (d.versym ≠ 0) n r) := by
  obtain ⟨nb, mw, hg'⟩ := ht.gnu hg
  have e1 := C49_non_ascii_missed ht.tab hg' n hn
  unfold exported
  rw [ht.init]
  simp only
  rw [if_neg (fun hc => hg hc.1), if_pos hg, e1]
  simp only
  refine ⟨fun he => ?_, fun he => ?_⟩
  · rw [if_neg (fun hc => hc.1 he)]
  · obtain ⟨nb', he'⟩ := ht.sysv he
    obtain ⟨r2, e2, n2⟩ := C50_sysv_lookup ht.tab he' n
    rw [if_pos (by exact ⟨he, trivial⟩), e2]
    exact ⟨r2, exported_step ht.tab (fun w hw => (n2.2 w hw).1.2.1) lAddr, n2⟩

/-- What `lookup_exported_symbol` answers for an object with a SysV section only, for every name. -/
theorem C50_exported (ht : Tables img d syms off) (hg : d.gnuHash = 0) (he : d.elfHash ≠ 0)
    (lAddr : Addr) (n : Name) :
    ∃ r, exported img lAddr n = .ok (addrOf syms lAddr r) ∧ Newest syms 1 (d.versym ≠ 0) n r := by
  obtain ⟨nb', he'⟩ := ht.sysv he
  obtain ⟨r2, e2, n2⟩ := C50_sysv_lookup ht.tab he' n
  unfold exported
  rw [ht.init]
  simp only
  rw [if_neg (fun hc => he hc.2), if_neg (by simpa using hg)]
  simp only
  rw [if_pos (by simpa using he), e2]
  exact ⟨r2, exported_step ht.tab (fun w hw => (n2.2 w hw).1.2.1) lAddr, n2⟩

/-- The demo image with both sections meets `Tables`: "foo" resolves to its newer version; "é", not
found through the GNU section, is found through the SysV section. -/
example : Tables (Demo.gimg true true) (Demo.ginfo true true) Demo.gsyms 1 ∧
    exported (Demo.gimg true true) 0x100000 (nm "foo") = .ok (some 0x102000) ∧
    exported (Demo.gimg true true) 0x100000 Demo.eAcute = .ok (some 0x103000) ∧
    exported (Demo.gimg true false) 0x100000 Demo.eAcute = .ok none :=
  ⟨⟨Demo.gdyn _ _, Demo.gSyms _ _, fun _ => ⟨2, 1, Demo.gGnu _ _⟩, fun _ => ⟨1, Demo.gSysv _ _⟩⟩,
    by decide +kernel, by decide +kernel, by decide +kernel⟩

/-- Not vacuous: the name "é" in an object with both sections. -/
example : ∃ r, exported (Demo.gimg true true) 0x100000 Demo.eAcute = .ok (addrOf Demo.gsyms 0x100000 r) ∧
    Newest Demo.gsyms 1 ((Demo.ginfo true true).versym ≠ 0) Demo.eAcute r :=
  (C49_exported_non_ascii ⟨Demo.gdyn _ _, Demo.gSyms _ _, fun _ => ⟨2, 1, Demo.gGnu _ _⟩, fun _ => ⟨1, Demo.gSysv _ _⟩⟩
    (by decide) 0x100000 Demo.eAcute (by decide +kernel)).2 (by decide)

end Gotcha.Props
