import Verif.Proof.Relocs
import Verif.Proof.Pages
import Verif.Demo.Image
/-
C52-C54: which relocations are visited, which pages are made writable, whose RELRO region it is.
-/
namespace Gotcha.Props
open Gotcha Elf Spec Got

/-! ### C52 -/

/-- The sizes are those of an array of `L.length` entries of `sz` bytes, below 4 GiB. -/
def SizeIs (v : Option Addr) (sz : Nat) (L : List (Addr × Name)) : Prop :=
  v = some (BitVec.ofNat 64 (sz * L.length)) ∧ sz * L.length < 2 ^ 32

theorem count_of_size {n sz : Nat} (h0 : 0 < sz) (h : sz * n < 2 ^ 32) :
    ((BitVec.ofNat 64 (sz * n)).setWidth 32 : BitVec 32).toNat / sz = n := by
  rw [BitVec.toNat_setWidth, BitVec.toNat_ofNat, Nat.mod_eq_of_lt (show sz * n < 2 ^ 64 by omega),
    Nat.mod_eq_of_lt h, Nat.mul_div_cancel_left _ h0]

/-- C52, RELA: with `DT_PLTREL` = `DT_RELA`, every entry of the PLT relocation table and of the RELA
table (`L2`, empty if there is none) is visited, in order. -/
theorem C52_rela_visited {img : Image} {l : List (Nat × Addr)} {j a symtab strtab : Addr}
    {L1 L2 : List (Addr × Name)} (hd : DynSection img l) (he : EntOk l)
    (hsym : tagVal l Tag.SYMTAB = some symtab) (hstr : tagVal l Tag.STRTAB = some strtab)
    (hfmt : tagVal l Tag.PLTREL = some 7)
    (hj : tagVal l Tag.JMPREL = some j) (hjs : SizeIs (tagVal l Tag.PLTRELSZ) 24 L1)
    (h1 : RelocTable img img.rela symtab strtab j 24 L1)
    (hmain : (tagVal l Tag.RELA = none ∧ L2 = []) ∨
      (tagVal l Tag.RELA = some a ∧ a ≠ 0 ∧ tagVal l Tag.RELAENT = some 24 ∧
        SizeIs (tagVal l Tag.RELASZ) 24 L2 ∧ RelocTable img img.rela symtab strtab a 24 L2)) :
    relocs img = .ok (some (L1 ++ L2)) := by
  unfold relocs
  rw [initDynamic_section hd he]
  simp only
  have e1 : (dynFold l).isRela = true := by rw [fold_isRela, hfmt]; rfl
  have e2 : (dynFold l).jmprel = j := by rw [fold_jmprel, hj]; rfl
  have e3 : (dynFold l).symtab = symtab := by rw [fold_symtab, hsym]; rfl
  have e4 : (dynFold l).strtab = strtab := by rw [fold_strtab, hstr]; rfl
  have e5 : (dynFold l).jmprelCount = L1.length := by
    unfold DynInfo.jmprelCount
    rw [e1, fold_jmprelSize, hjs.1]
    exact count_of_size (by omega) hjs.2
  have r1 : relocsInt img img.rela (dynFold l) j 24 L1.length 0 = .ok L1 := by
    have := relocsInt_eq (d := dynFold l) (by rw [e3, e4]; exact h1) L1.length 0 (by omega)
    rw [this, List.drop_zero]
  unfold relocsOf
  simp only [e1, if_true, e2, e5, r1]
  rcases hmain with ⟨hn, rfl⟩ | ⟨ha, ha0, hent, hsz, h2⟩
  · have : (dynFold l).rela = 0 := by rw [fold_rela, hn]; rfl
    simp [this]
  · have e6 : (dynFold l).rela = a := by rw [fold_rela, ha]; rfl
    have e7 : (dynFold l).relaCount = L2.length := by
      unfold DynInfo.relaCount
      rw [e6, if_pos ha0, fold_relaSize, hsz.1, fold_relaEsz, hent]
      exact count_of_size (by omega) hsz.2
    have r2 : relocsInt img img.rela (dynFold l) a 24 L2.length 0 = .ok L2 := by
      have := relocsInt_eq (d := dynFold l) (by rw [e3, e4]; exact h2) L2.length 0 (by omega)
      rw [this, List.drop_zero]
    simp only [e6, e7, r2, if_pos ha0]

/-- C52, REL. -/
theorem C52_rel_visited {img : Image} {l : List (Nat × Addr)} {j a symtab strtab : Addr}
    {L1 L2 : List (Addr × Name)} (hd : DynSection img l) (he : EntOk l)
    (hsym : tagVal l Tag.SYMTAB = some symtab) (hstr : tagVal l Tag.STRTAB = some strtab)
    (hfmt : tagVal l Tag.PLTREL = some 17)
    (hj : tagVal l Tag.JMPREL = some j) (hjs : SizeIs (tagVal l Tag.PLTRELSZ) 16 L1)
    (h1 : RelocTable img img.rel symtab strtab j 16 L1)
    (hmain : (tagVal l Tag.REL = none ∧ L2 = []) ∨
      (tagVal l Tag.REL = some a ∧ a ≠ 0 ∧ tagVal l Tag.RELENT = some 16 ∧
        SizeIs (tagVal l Tag.RELSZ) 16 L2 ∧ RelocTable img img.rel symtab strtab a 16 L2)) :
    relocs img = .ok (some (L1 ++ L2)) := by
  unfold relocs
  rw [initDynamic_section hd he]
  simp only
  have e1 : (dynFold l).isRela = false := by rw [fold_isRela, hfmt]; rfl
  have e2 : (dynFold l).jmprel = j := by rw [fold_jmprel, hj]; rfl
  have e3 : (dynFold l).symtab = symtab := by rw [fold_symtab, hsym]; rfl
  have e4 : (dynFold l).strtab = strtab := by rw [fold_strtab, hstr]; rfl
  have e5 : (dynFold l).jmprelCount = L1.length := by
    unfold DynInfo.jmprelCount
    rw [e1, fold_jmprelSize, hjs.1]
    exact count_of_size (by omega) hjs.2
  have r1 : relocsInt img img.rel (dynFold l) j 16 L1.length 0 = .ok L1 := by
    have := relocsInt_eq (d := dynFold l) (by rw [e3, e4]; exact h1) L1.length 0 (by omega)
    rw [this, List.drop_zero]
  unfold relocsOf
  simp only [e1, if_false, e2, e5, r1, Bool.false_eq_true]
  rcases hmain with ⟨hn, rfl⟩ | ⟨ha, ha0, hent, hsz, h2⟩
  · have : (dynFold l).rel = 0 := by rw [fold_rel, hn]; rfl
    simp [this]
  · have e6 : (dynFold l).rel = a := by rw [fold_rel, ha]; rfl
    have e7 : (dynFold l).relCount = L2.length := by
      unfold DynInfo.relCount
      rw [e6, if_pos ha0, fold_relSize, hsz.1, fold_relEsz, hent]
      exact count_of_size (by omega) hsz.2
    have r2 : relocsInt img img.rel (dynFold l) a 16 L2.length 0 = .ok L2 := by
      have := relocsInt_eq (d := dynFold l) (by rw [e3, e4]; exact h2) L2.length 0 (by omega)
      rw [this, List.drop_zero]
    simp only [e6, e7, r2, if_pos ha0]

/-- Without DT_PLTREL and DT_PLTRELSZ (a library linked with -fno-plt / -z now and no lazy PLT) and
without a REL table nothing is visited, whatever its RELA table holds. -/
theorem C52_no_pltrel_visits_nothing {img : Image} {l : List (Nat × Addr)} (hd : DynSection img l)
    (he : EntOk l) (h1 : tagVal l Tag.PLTREL = none) (h2 : tagVal l Tag.PLTRELSZ = none)
    (h3 : tagVal l Tag.REL = none) : relocs img = .ok (some []) := by
  unfold relocs
  rw [initDynamic_section hd he]
  simp only
  have e1 : (dynFold l).isRela = false := by rw [fold_isRela, h1]; rfl
  have e5 : (dynFold l).jmprelCount = 0 := by
    unfold DynInfo.jmprelCount
    rw [e1, fold_jmprelSize, h2]
    rfl
  have e6 : (dynFold l).rel = 0 := by rw [fold_rel, h3]; rfl
  unfold relocsOf
  simp [e1, e5, e6, relocsInt]

/-- An image with a RELA table of one entry for the function `puts`; with or without PLT table. -/
def oneReloc (plt : Bool) : Image where
  dyn := some ([(Tag.SYMTAB, 0x1000), (Tag.STRTAB, 0x2000), (Tag.RELA, 0x3000), (Tag.RELASZ, 24),
    (Tag.RELAENT, 24)] ++
    (if plt then [(Tag.PLTREL, 7), (Tag.JMPREL, 0x4000), (Tag.PLTRELSZ, 24)] else []) ++ [(0, 0)])
  sym a := if a = 0x1018 then some ⟨5, 0, 0⟩ else if a = 0x1030 then some ⟨9, 0, 0⟩ else none
  rela a := if a = 0x3000 then some ⟨0x5000, 1⟩ else if a = 0x4000 then some ⟨0x5008, 2⟩ else none
  rel _ := none
  word _ := none
  half _ := none
  str a := if a = 0x2005 then some (nm "puts") else if a = 0x2009 then some (nm "gets") else none

/-- C52 is false of libraries without DT_PLTREL: their RELA table is never visited. -/
theorem C52_no_pltrel_refuted : ∃ (img : Image) (l : List (Nat × Addr)) (L : List (Addr × Name)),
    DynSection img l ∧ EntOk l ∧ L ≠ [] ∧ tagVal l Tag.RELA = some 0x3000 ∧
    tagVal l Tag.RELAENT = some 24 ∧ SizeIs (tagVal l Tag.RELASZ) 24 L ∧
    RelocTable img img.rela 0x1000 0x2000 0x3000 24 L ∧ relocs img = .ok (some []) := by
  refine ⟨oneReloc false, [(Tag.SYMTAB, 0x1000), (Tag.STRTAB, 0x2000), (Tag.RELA, 0x3000),
    (Tag.RELASZ, 24), (Tag.RELAENT, 24)], [(0x5000, nm "puts")], ⟨by decide, 0, [], rfl⟩, ?_, by simp,
    by decide, by decide, ⟨by decide, by decide⟩, ?_, by decide +kernel⟩
  · rintro t (rfl | rfl) v h
    · cases h
    · cases h; decide
  · intro i x h
    cases i with
    | zero => cases h; exact ⟨⟨0x5000, 1⟩, ⟨5, 0, 0⟩, by decide, rfl, by decide, by decide +kernel⟩
    | succ i => cases h

/-- The same library with a PLT table: both tables are visited. -/
example : relocs (oneReloc true) = .ok (some [(0x5008, nm "gets"), (0x5000, nm "puts")]) := by
  refine C52_rela_visited (l := [(Tag.SYMTAB, 0x1000), (Tag.STRTAB, 0x2000), (Tag.RELA, 0x3000),
    (Tag.RELASZ, 24), (Tag.RELAENT, 24), (Tag.PLTREL, 7), (Tag.JMPREL, 0x4000), (Tag.PLTRELSZ, 24)])
    (L1 := [(0x5008, nm "gets")]) (L2 := [(0x5000, nm "puts")]) (j := 0x4000) (a := 0x3000)
    (symtab := 0x1000) (strtab := 0x2000) ⟨by decide, 0, [], rfl⟩ ?_ (by decide) (by decide)
    (by decide) (by decide) ⟨by decide, by decide⟩ ?_
    (Or.inr ⟨by decide, by decide, by decide, ⟨by decide, by decide⟩, ?_⟩)
  · rintro t (rfl | rfl) v h
    · cases h
    · cases h; decide
  · intro i x h
    cases i with
    | zero => cases h; exact ⟨⟨0x5008, 2⟩, ⟨9, 0, 0⟩, by decide, rfl, by decide, by decide +kernel⟩
    | succ i => cases h
  · intro i x h
    cases i with
    | zero => cases h; exact ⟨⟨0x5000, 1⟩, ⟨5, 0, 0⟩, by decide, rfl, by decide, by decide +kernel⟩
    | succ i => cases h

/-! ### C70 -/

/-- C70: on a dynamic section ended by DT_NULL, INIT_DYNAMIC finds for each tag the value of its last
entry, whatever the order of the entries and whatever other tags there are; nothing behind DT_NULL is
read. -/
theorem C70_dynamic_section {img : Image} {l : List (Nat × Addr)} (hd : DynSection img l)
    (he : EntOk l) : initDynamic img = .ok (some (sectionInfo l)) := by
  rw [initDynamic_section hd he, dynFold_eq]

/-- C70: without a dynamic section there is nothing to find, and the macro returns from its caller. -/
theorem C70_no_dynamic_section {img : Image} (h : img.dyn = none) :
    initDynamic img = .ok none ∧ relocs img = .ok none := by
  simp [initDynamic, relocs, h]

/-- C70: a relocation table whose entry size is given as 0 makes the macro divide by zero. -/
theorem C70_zero_entry_size {img : Image} {l : List (Nat × Addr)} (hd : DynSection img l)
    (hz : ((tagVal l Tag.REL).getD 0 ≠ 0 ∧ ((tagVal l Tag.RELENT).getD 1).setWidth 32 = (0 : BitVec 32)) ∨
      ((tagVal l Tag.RELA).getD 0 ≠ 0 ∧ ((tagVal l Tag.RELAENT).getD 1).setWidth 32 = (0 : BitVec 32))) :
    initDynamic img = .error .divZero := by
  obtain ⟨l', h1, h2⟩ := dynSection_loop hd
  unfold initDynamic
  rw [h1]
  simp only [h2]
  rw [dynFold_eq]
  rcases hz with hz | hz
  · exact if_pos hz
  · split
    · rfl
    · exact if_pos hz

/-- Entries in any order, an unknown tag, a repeated one, and junk behind the end. -/
example : DynSection { oneReloc false with dyn := some [(Tag.STRTAB, 0x10), (1, 5), (Tag.SYMTAB, 0x20),
      (Tag.STRTAB, 0x30), (Tag.RELASZ, 0x100000018), (0, 7), (Tag.SYMTAB, 0x40)] }
      [(Tag.STRTAB, 0x10), (1, 5), (Tag.SYMTAB, 0x20), (Tag.STRTAB, 0x30), (Tag.RELASZ, 0x100000018)] ∧
    (sectionInfo [(Tag.STRTAB, 0x10), (1, 5), (Tag.SYMTAB, 0x20), (Tag.STRTAB, 0x30),
      (Tag.RELASZ, 0x100000018)]) =
      { strtab := 0x30, symtab := 0x20, relaSize := 0x18 : DynInfo } :=
  ⟨⟨by decide, 7, [(Tag.SYMTAB, 0x40)], rfl⟩, by decide⟩

/-- The entry size of the RELA table is 2^32, of which the code keeps the low 32 bits. -/
example : initDynamic { oneReloc false with
    dyn := some [(Tag.RELA, 0x3000), (Tag.RELAENT, 0x100000000), (0, 0)] } = .error .divZero :=
  C70_zero_entry_size (l := [(Tag.RELA, 0x3000), (Tag.RELAENT, 0x100000000)])
    ⟨by decide, 0, [], rfl⟩ (Or.inr ⟨by decide, by decide⟩)

/-! ### C53 -/

/-- `a` lies in the range of an mprotect call. -/
def Within (a : Nat) (r : Addr × BitVec 64) : Prop := r.1.toNat ≤ a ∧ a < r.1.toNat + r.2.toNat

section C53
variable {k : Nat} {got : Addr} {relSize : BitVec 32} {relro : Option (Addr × Addr)}

/-- C53: addresses and sizes are page aligned. -/
theorem C53_aligned (hk : k < 64) (hg : got.toNat + relSize.toNat + 2 * 2 ^ k ≤ 2 ^ 64)
    (hr : ∀ s e, relro = some (s, e) → s.toNat < e.toNat ∧ e.toNat + 2 ^ k ≤ 2 ^ 64) :
    ∀ r ∈ ranges (BitVec.ofNat 64 (2 ^ k)) got relSize relro,
      2 ^ k ∣ r.1.toNat ∧ 2 ^ k ∣ r.2.toNat := by
  obtain ⟨P, Z, hP, hZ, h⟩ := ranges_shape hk hg hr
  have dP : 2 ^ k ∣ P := hP ▸ Nat.dvd_mul_left ..
  have dZ : 2 ^ k ∣ Z := by
    rw [hZ]
    rcases Nat.le_total (ceilTo (2 ^ k) relSize.toNat) (2 ^ k) with h | h
    · rw [Nat.max_eq_right h]
    · rw [Nat.max_eq_left h]; exact ceilTo_dvd ..
  intro r hmem
  rcases h with ⟨-, r0, e, h1, h2⟩ | ⟨s, e, A, E, -, hA, hE, h1, h2, h3⟩
  · rw [e] at hmem
    rw [List.mem_singleton] at hmem
    subst hmem
    rw [h1, h2]; exact ⟨dP, dZ⟩
  · have dA : 2 ^ k ∣ A := hA ▸ Nat.dvd_mul_left ..
    have dE : 2 ^ k ∣ E := hE ▸ ceilTo_dvd ..
    have dEA : 2 ^ k ∣ E - A := Nat.dvd_sub dE dA
    rcases h3 with ⟨r0, e, ⟨-, q1, q2⟩ | ⟨-, q1, q2⟩⟩ | ⟨r1, r2, e, q1, q2, q3, q4⟩
    · rw [e] at hmem
      rw [List.mem_singleton] at hmem
      subst hmem
      rw [q1, q2]; exact ⟨dP, Nat.dvd_add dZ dEA⟩
    · rw [e] at hmem
      rw [List.mem_singleton] at hmem
      subst hmem
      rw [q1, q2]; exact ⟨dA, Nat.dvd_add dZ dEA⟩
    · rw [e] at hmem
      rcases List.mem_cons.1 hmem with rfl | hmem
      · rw [q1, q2]; exact ⟨dA, dEA⟩
      · rw [List.mem_singleton] at hmem
        subst hmem
        rw [q3, q4]; exact ⟨dP, dZ⟩

/-- C53: the page of the PLT GOT, and the following pages up to DT_RELSZ bytes, are covered. -/
theorem C53_covers_got (hk : k < 64) (hg : got.toNat + relSize.toNat + 2 * 2 ^ k ≤ 2 ^ 64)
    (hr : ∀ s e, relro = some (s, e) → s.toNat < e.toNat ∧ e.toNat + 2 ^ k ≤ 2 ^ 64)
    (a : Nat) (h1 : got.toNat / 2 ^ k * 2 ^ k ≤ a)
    (h2 : a / 2 ^ k = got.toNat / 2 ^ k ∨ a < got.toNat / 2 ^ k * 2 ^ k + relSize.toNat) :
    ∃ r ∈ ranges (BitVec.ofNat 64 (2 ^ k)) got relSize relro, Within a r := by
  have hp := Nat.two_pow_pos k
  obtain ⟨P, Z, hP, hZ, h⟩ := ranges_shape hk hg hr
  have hc := ceilTo_ge hp relSize.toNat
  have hlt : a < P + Z := by
    rcases h2 with h2 | h2
    · have := Nat.lt_div_mul_add (a := a) hp
      rw [h2] at this
      omega
    · omega
  rw [← hP] at h1
  rcases h with ⟨-, r0, e, q1, q2⟩ | ⟨s, e, A, E, hre, -, -, g1, g2, h3⟩
  · exact ⟨r0, by rw [e]; exact List.mem_singleton.2 rfl, by unfold Within; omega⟩
  · rcases h3 with ⟨r0, e, ⟨q0, q1, q2⟩ | ⟨q0, q1, q2⟩⟩ | ⟨r1, r2, e, q1, q2, q3, q4⟩
    · exact ⟨r0, by rw [e]; exact List.mem_singleton.2 rfl, by unfold Within; omega⟩
    · exact ⟨r0, by rw [e]; exact List.mem_singleton.2 rfl, by
        have := (hr s _ hre).1
        unfold Within; omega⟩
    · exact ⟨r2, by rw [e]; simp, by unfold Within; omega⟩

/-- C53: the whole RELRO region is covered. -/
theorem C53_covers_relro (hk : k < 64) (hg : got.toNat + relSize.toNat + 2 * 2 ^ k ≤ 2 ^ 64)
    {s e : Addr} (hr : relro = some (s, e)) (hse : s.toNat < e.toNat)
    (he : e.toNat + 2 ^ k ≤ 2 ^ 64) (a : Nat) (h1 : s.toNat ≤ a) (h2 : a < e.toNat) :
    ∃ r ∈ ranges (BitVec.ofNat 64 (2 ^ k)) got relSize relro, Within a r := by
  have hp := Nat.two_pow_pos k
  obtain ⟨P, Z, hP, hZ, h⟩ := ranges_shape (relro := relro) hk hg
    (fun s' e' h => by rw [hr] at h; cases h; exact ⟨hse, he⟩)
  rcases h with ⟨hn, -⟩ | ⟨s', e', A, E, hr', -, -, g1, g2, h3⟩
  · rw [hr] at hn; cases hn
  · rw [hr] at hr'; cases hr'
    rcases h3 with ⟨r0, e, ⟨q0, q1, q2⟩ | ⟨q0, q1, q2⟩⟩ | ⟨r1, r2, e, q1, q2, q3, q4⟩
    · exact ⟨r0, by rw [e]; exact List.mem_singleton.2 rfl, by unfold Within; omega⟩
    · exact ⟨r0, by rw [e]; exact List.mem_singleton.2 rfl, by unfold Within; omega⟩
    · exact ⟨r1, by rw [e]; simp, by unfold Within; omega⟩

/-- C53: nothing else becomes writable.  An address in one of the ranges is on a page of the RELRO
region, on the page of the PLT GOT, or on one of the pages that begin within DT_RELSZ bytes of it. -/
theorem C53_nothing_else (hk : k < 64) (hg : got.toNat + relSize.toNat + 2 * 2 ^ k ≤ 2 ^ 64)
    (hr : ∀ s e, relro = some (s, e) → s.toNat < e.toNat ∧ e.toNat + 2 ^ k ≤ 2 ^ 64)
    (a : Nat) {r : Addr × BitVec 64}
    (hmem : r ∈ ranges (BitVec.ofNat 64 (2 ^ k)) got relSize relro) (ha : Within a r) :
    (∃ s e, relro = some (s, e) ∧ ∃ x, s.toNat ≤ x ∧ x < e.toNat ∧ x / 2 ^ k = a / 2 ^ k) ∨
      (got.toNat / 2 ^ k ≤ a / 2 ^ k ∧ (a / 2 ^ k = got.toNat / 2 ^ k ∨
        a / 2 ^ k * 2 ^ k < got.toNat / 2 ^ k * 2 ^ k + relSize.toNat)) := by
  have hp := Nat.two_pow_pos k
  obtain ⟨P, Z, hP, hZ, h⟩ := ranges_shape hk hg hr
  obtain ⟨ha1, ha2⟩ := ha
  have plt : P ≤ a → a < P + Z → (got.toNat / 2 ^ k ≤ a / 2 ^ k ∧ (a / 2 ^ k = got.toNat / 2 ^ k ∨
        a / 2 ^ k * 2 ^ k < got.toNat / 2 ^ k * 2 ^ k + relSize.toNat)) := by
    intro h1 h2
    rw [hP] at h1 h2
    rw [hZ] at h2
    exact page_of_size hp h1 h2
  rcases h with ⟨-, r0, e, q1, q2⟩ | ⟨s, e, A, E, hre, hA, hE, g1, g2, h3⟩
  · rw [e] at hmem
    rw [List.mem_singleton] at hmem
    subst hmem
    exact Or.inr (plt (by omega) (by omega))
  · have hse := (hr s e hre).1
    have rel : A ≤ a → a < E → ∃ s e, relro = some (s, e) ∧
        ∃ x, s.toNat ≤ x ∧ x < e.toNat ∧ x / 2 ^ k = a / 2 ^ k := by
      intro h1 h2
      rw [hA] at h1
      rw [hE] at h2
      exact ⟨s, e, hre, page_of_ceil hp hse h1 h2⟩
    rcases h3 with ⟨r0, e, ⟨q0, q1, q2⟩ | ⟨q0, q1, q2⟩⟩ | ⟨r1, r2, e, q1, q2, q3, q4⟩
    · rw [e] at hmem
      rw [List.mem_singleton] at hmem
      subst hmem
      by_cases hc : a < P + Z
      · exact Or.inr (plt (by omega) hc)
      · exact Or.inl (rel (by omega) (by omega))
    · rw [e] at hmem
      rw [List.mem_singleton] at hmem
      subst hmem
      by_cases hc : a < E
      · exact Or.inl (rel (by omega) hc)
      · exact Or.inr (plt (by omega) (by omega))
    · rw [e] at hmem
      rcases List.mem_cons.1 hmem with rfl | hmem
      · exact Or.inl (rel (by omega) (by omega))
      · rw [List.mem_singleton] at hmem
        subst hmem
        exact Or.inr (plt (by omega) (by omega))

/-- A usual layout: RELRO 0x3df8-0x4000 ends where the page of the PLT GOT (0x4000) begins; one call
covers both pages.  The hypotheses hold. -/
example : ranges (BitVec.ofNat 64 (2 ^ 12)) 0x4000 0 (some (0x3df8, 0x4000)) = [(0x3000, 0x2000)] ∧
    (0x4000 : Addr).toNat + (0 : BitVec 32).toNat + 2 * 2 ^ 12 ≤ 2 ^ 64 ∧
    (0x3df8 : Addr).toNat < (0x4000 : Addr).toNat ∧ (0x4000 : Addr).toNat + 2 ^ 12 ≤ 2 ^ 64 := by
  decide

/-- Separate calls. -/
example : ranges (BitVec.ofNat 64 (2 ^ 12)) 0x8010 0x1800 (some (0x3df8, 0x4100)) =
    [(0x3000, 0x2000), (0x8000, 0x2000)] := by
  decide

end C53

/-! ### C54 -/

/-- `o` is the object `lib` in the list that `dl_iterate_phdr` reports. -/
def SameObject (lib o : Lib) : Prop := o.name = lib.name ∧ o.addr = lib.addr

/-- C54: the region found is the PT_GNU_RELRO segment of an object with the library's name and load
address. -/
theorem C54_region_is_its_own (objs : List Lib) (lib : Lib) (s e : Addr)
    (h : relroBoundary objs lib = some (s, e)) :
    ∃ o ∈ objs, SameObject lib o ∧ ∃ p ∈ o.phdrs, p.type = 0x6474e552 ∧
      s = o.addr + p.vaddr ∧ e = o.addr + p.vaddr + p.memsz := by
  obtain ⟨o, ho, h1⟩ := List.exists_of_findSome?_eq_some h
  unfold relroOf at h1
  split at h1
  · rename_i hany
    obtain ⟨q, -, hq⟩ := List.any_eq_true.1 hany
    simp only [decide_eq_true_eq] at hq
    split at h1
    · cases h1
    · rename_i p hp
      simp only [Option.some.injEq, Prod.mk.injEq] at h1
      have hpt := List.find?_some hp
      simp only [decide_eq_true_eq] at hpt
      exact ⟨o, ho, ⟨hq.2.1.symm, hq.2.2.symm⟩, p, List.mem_of_find?_eq_some hp, hpt,
        by rw [← hq.2.2]; exact h1.1.symm, by rw [← hq.2.2]; exact h1.2.symm⟩
  · cases h1

/-- C54: no region is found exactly when no loaded object with that name and address has both a
loadable and a PT_GNU_RELRO segment. -/
theorem C54_none_iff (objs : List Lib) (lib : Lib) :
    relroBoundary objs lib = none ↔ ∀ o ∈ objs, SameObject lib o →
      (∃ p ∈ o.phdrs, p.type = 1) → ∀ p ∈ o.phdrs, p.type ≠ 0x6474e552 := by
  unfold relroBoundary
  rw [List.findSome?_eq_none_iff]
  constructor
  · rintro h o ho ⟨h1, h2⟩ ⟨q, hq, hqt⟩ p hp hpt
    have := h o ho
    unfold relroOf at this
    rw [if_pos (List.any_eq_true.2 ⟨q, hq, by simp [PT_LOAD, hqt, h1, h2]⟩)] at this
    split at this
    · rename_i hn
      have := List.find?_eq_none.1 hn p hp
      exact this (by simp [PT_GNU_RELRO, hpt])
    · cases this
  · intro h o ho
    unfold relroOf
    split
    · rename_i hany
      obtain ⟨q, hq, hq'⟩ := List.any_eq_true.1 hany
      simp only [decide_eq_true_eq] at hq'
      split
      · rfl
      · rename_i p hp
        have hpt := List.find?_some hp
        simp only [decide_eq_true_eq] at hpt
        exact absurd hpt (h o ho ⟨hq'.2.1.symm, hq'.2.2.symm⟩ ⟨q, hq, hq'.1⟩ p
          (List.mem_of_find?_eq_some hp))
    · rfl

/-- C54: when name and load address identify a loaded object and the library is loaded, with one
PT_GNU_RELRO segment, the region is exactly that segment. -/
theorem C54_own_segment (objs : List Lib) (lib : Lib) (p : Phdr) (hin : lib ∈ objs)
    (huniq : ∀ o ∈ objs, SameObject lib o → o = lib) (hload : ∃ q ∈ lib.phdrs, q.type = 1)
    (hp : p ∈ lib.phdrs) (hpt : p.type = 0x6474e552)
    (honly : ∀ q ∈ lib.phdrs, q.type = 0x6474e552 → q = p) :
    relroBoundary objs lib = some (lib.addr + p.vaddr, lib.addr + p.vaddr + p.memsz) := by
  cases h : relroBoundary objs lib with
  | none => exact absurd hpt ((C54_none_iff objs lib).1 h lib hin ⟨rfl, rfl⟩ hload p hp)
  | some se =>
    obtain ⟨s, e⟩ := se
    obtain ⟨o, ho, hso, q, hq, hqt, h1, h2⟩ := C54_region_is_its_own objs lib s e h
    have := huniq o ho hso
    subst this
    have := honly q hq hqt
    subst this
    rw [h1, h2]

section
variable {k : Nat}

/-- C53 for a library: with a PLT GOT (`DT_PLTGOT`) and its RELRO segment, every address of that segment
and of the page of the PLT GOT lies in one of the ranges that are made writable; and every such range
is page aligned. -/
theorem C53_library {objs : List Lib} {lib : Lib} {l : List (Nat × Addr)} {g : Addr} {p : Phdr}
    (hk : k < 64) (hd : DynSection lib.img l) (he : EntOk l) (hg : tagVal l Tag.PLTGOT = some g)
    (hg0 : g ≠ 0) (hin : lib ∈ objs) (huniq : ∀ o ∈ objs, o.name = lib.name ∧ o.addr = lib.addr → o = lib)
    (hload : ∃ q ∈ lib.phdrs, q.type = 1) (hp : p ∈ lib.phdrs) (hpt : p.type = 0x6474e552)
    (honly : ∀ q ∈ lib.phdrs, q.type = 0x6474e552 → q = p) (hm : 0 < p.memsz.toNat)
    (hr : lib.addr.toNat + p.vaddr.toNat + p.memsz.toNat + 2 ^ k ≤ 2 ^ 64)
    (hz : g.toNat + ((tagVal l Tag.RELSZ).getD 0).toNat % 2 ^ 32 + 2 * 2 ^ k ≤ 2 ^ 64) :
    ∃ rs, markCalls (BitVec.ofNat 64 (2 ^ k)) objs lib = .ok rs ∧
      (∀ r ∈ rs, 2 ^ k ∣ r.1.toNat ∧ 2 ^ k ∣ r.2.toNat) ∧
      ∀ a, ((lib.addr.toNat + p.vaddr.toNat ≤ a ∧ a < lib.addr.toNat + p.vaddr.toNat + p.memsz.toNat) ∨
        a / 2 ^ k = g.toNat / 2 ^ k) → ∃ r ∈ rs, Within a r := by
  have hpos := Nat.two_pow_pos k
  have e1 : (lib.addr + p.vaddr).toNat = lib.addr.toNat + p.vaddr.toNat := by
    rw [BitVec.toNat_add, Nat.mod_eq_of_lt (by omega)]
  have e2 : (lib.addr + p.vaddr + p.memsz).toNat = lib.addr.toNat + p.vaddr.toNat + p.memsz.toNat := by
    rw [BitVec.toNat_add, e1, Nat.mod_eq_of_lt (by omega)]
  have hrel := C54_own_segment objs lib p hin huniq hload hp hpt honly
  have hsz : (((tagVal l Tag.RELSZ).getD 0).setWidth 32 : BitVec 32).toNat =
      ((tagVal l Tag.RELSZ).getD 0).toNat % 2 ^ 32 := BitVec.toNat_setWidth ..
  have hpg : BitVec.ofNat 64 (2 ^ k) ≠ 0 := by
    intro h
    have := congrArg BitVec.toNat h
    rw [BitVec.toNat_ofNat, Nat.mod_eq_of_lt (Nat.pow_lt_pow_right (by omega) hk)] at this
    have h0 : (0 : BitVec 64).toNat = 0 := rfl
    omega
  have hseg : ∀ s e, (some (lib.addr + p.vaddr, lib.addr + p.vaddr + p.memsz) : Option (Addr × Addr)) =
      some (s, e) → s.toNat < e.toNat ∧ e.toNat + 2 ^ k ≤ 2 ^ 64 := by
    intro s e h
    cases h
    omega
  refine ⟨ranges (BitVec.ofNat 64 (2 ^ k)) g (((tagVal l Tag.RELSZ).getD 0).setWidth 32)
      (some (lib.addr + p.vaddr, lib.addr + p.vaddr + p.memsz)), ?_,
    C53_aligned hk (by omega) hseg, ?_⟩
  · unfold markCalls
    rw [C70_dynamic_section hd he]
    simp only [sectionInfo, hg, Option.getD_some]
    rw [if_neg hg0, if_neg hpg, hrel]
  · rintro a (⟨h1, h2⟩ | h)
    · exact C53_covers_relro hk (by omega) rfl (by omega) (by omega) a (by omega) (by omega)
    · exact C53_covers_got hk (by omega) hseg a (by rw [← h]; exact Nat.div_mul_le_self ..) (Or.inl h)

/-- C53: without `DT_PLTGOT` no range at all is made writable, not even the RELRO segment. -/
theorem C53_no_pltgot {objs : List Lib} {lib : Lib} {l : List (Nat × Addr)} (page : BitVec 64)
    (hd : DynSection lib.img l) (he : EntOk l) (hg : (tagVal l Tag.PLTGOT).getD 0 = 0) :
    markCalls page objs lib = .ok [] := by
  unfold markCalls
  rw [C70_dynamic_section hd he]
  simp only [sectionInfo, hg]
  rfl

end

/-- Two objects of the same name at different addresses. -/
def relroLib (a v : Addr) : Lib where
  lm := a
  name := some (nm "libx.so")
  addr := a
  ld := 0
  img := Demo.img [] [] 0
  phdrs := [⟨1, 0, 0x1000⟩, ⟨0x6474e552, v, 0x100⟩]

example : relroBoundary [relroLib 0x10000 0xf00, relroLib 0x20000 0xe00] (relroLib 0x20000 0xe00) =
    some (0x20e00, 0x20f00) :=
  C54_own_segment _ _ ⟨0x6474e552, 0xe00, 0x100⟩ (by simp)
    (by
      intro o ho hs
      simp only [List.mem_cons, List.not_mem_nil, or_false] at ho
      rcases ho with rfl | rfl
      · exact absurd hs.2 (by decide)
      · rfl)
    ⟨⟨1, 0, 0x1000⟩, by simp [relroLib], rfl⟩ (by simp [relroLib]) rfl
    (by
      intro q hq hqt
      simp only [relroLib, List.mem_cons, List.not_mem_nil, or_false] at hq
      rcases hq with rfl | rfl
      · exact absurd hqt (by decide)
      · rfl)

/-- The second object with a PLT GOT at 0x21000: its RELRO segment 0x20e00-0x20f00 and the page of the
GOT are adjacent, and one call makes both writable. -/
def gotLib : Lib :=
  { relroLib 0x20000 0xe00 with img := { Demo.img [] [] 0 with dyn := some [(Tag.PLTGOT, 0x21000), (0, 0)] } }

example : markCalls 0x1000 [relroLib 0x10000 0xf00, gotLib] gotLib = .ok [(0x20000, 0x2000)] ∧
    ∃ rs, markCalls (BitVec.ofNat 64 (2 ^ 12)) [relroLib 0x10000 0xf00, gotLib] gotLib = .ok rs ∧
      (∀ r ∈ rs, 2 ^ 12 ∣ r.1.toNat ∧ 2 ^ 12 ∣ r.2.toNat) ∧
      ∀ a, ((0x20000 + 0xe00 ≤ a ∧ a < 0x20000 + 0xe00 + 0x100) ∨
        a / 2 ^ 12 = 0x21000 / 2 ^ 12) → ∃ r ∈ rs, Within a r := by
  refine ⟨by decide +kernel, C53_library (l := [(Tag.PLTGOT, 0x21000)]) (g := 0x21000)
    (p := ⟨0x6474e552, 0xe00, 0x100⟩) (by omega) ⟨by decide, 0, [], rfl⟩ ?_ (by decide) (by decide)
    (by simp) ?_ ⟨⟨1, 0, 0x1000⟩, by simp [gotLib, relroLib], rfl⟩ (by simp [gotLib, relroLib]) rfl ?_
    (by decide) (by decide) (by decide)⟩
  · rintro t (rfl | rfl) v h <;> cases h
  · intro o ho hs
    simp only [List.mem_cons, List.not_mem_nil, or_false] at ho
    rcases ho with rfl | rfl
    · exact absurd hs.2 (by decide)
    · rfl
  · intro q hq hqt
    simp only [gotLib, relroLib, List.mem_cons, List.not_mem_nil, or_false] at hq
    rcases hq with rfl | rfl
    · exact absurd hqt (by decide)
    · rfl

/-- The same object without the entry: nothing becomes writable. -/
example : markCalls 0x1000 [relroLib 0x20000 0xe00]
    { gotLib with img := { gotLib.img with dyn := some [(0, 0)] } } = .ok [] :=
  C53_no_pltgot (l := []) _ ⟨by decide, 0, [], rfl⟩ (by rintro t _ v h; cases h) rfl

/-- The library without DT_PLTREL of `C52_no_pltrel_refuted`. -/
example : relocs (oneReloc false) = .ok (some []) :=
  C52_no_pltrel_visits_nothing (l := [(Tag.SYMTAB, 0x1000), (Tag.STRTAB, 0x2000), (Tag.RELA, 0x3000),
    (Tag.RELASZ, 24), (Tag.RELAENT, 24)]) ⟨by decide, 0, [], rfl⟩
    (by rintro t (rfl | rfl) v h
        · cases h
        · cases h; decide) (by decide) (by decide) (by decide)

/-- A library whose tables are in the REL format. -/
def relImage : Image where
  dyn := some [(Tag.SYMTAB, 0x1000), (Tag.STRTAB, 0x2000), (Tag.REL, 0x3000), (Tag.RELSZ, 16), (Tag.RELENT, 16),
    (Tag.PLTREL, 17), (Tag.JMPREL, 0x4000), (Tag.PLTRELSZ, 16), (0, 0)]
  sym a := if a = 0x1018 then some ⟨5, 0, 0⟩ else if a = 0x1030 then some ⟨9, 0, 0⟩ else none
  rela _ := none
  rel a := if a = 0x3000 then some ⟨0x5000, 1⟩ else if a = 0x4000 then some ⟨0x5008, 2⟩ else none
  word _ := none
  half _ := none
  str a := if a = 0x2005 then some (nm "puts") else if a = 0x2009 then some (nm "gets") else none

/-- Not vacuous: `C52_rel_visited`. -/
example : relocs relImage = .ok (some [(0x5008, nm "gets"), (0x5000, nm "puts")]) := by
  refine C52_rel_visited (l := [(Tag.SYMTAB, 0x1000), (Tag.STRTAB, 0x2000), (Tag.REL, 0x3000),
    (Tag.RELSZ, 16), (Tag.RELENT, 16), (Tag.PLTREL, 17), (Tag.JMPREL, 0x4000), (Tag.PLTRELSZ, 16)])
    (L1 := [(0x5008, nm "gets")]) (L2 := [(0x5000, nm "puts")]) (j := 0x4000) (a := 0x3000)
    (symtab := 0x1000) (strtab := 0x2000) ⟨by decide, 0, [], rfl⟩ ?_ (by decide) (by decide)
    (by decide) (by decide) ⟨by decide, by decide⟩ ?_
    (Or.inr ⟨by decide, by decide, by decide, ⟨by decide, by decide⟩, ?_⟩)
  · rintro t (rfl | rfl) v h
    · cases h; decide
    · cases h
  · intro i x h
    cases i with
    | zero => cases h; exact ⟨⟨0x5008, 2⟩, ⟨9, 0, 0⟩, by decide, rfl, by decide, by decide +kernel⟩
    | succ i => cases h
  · intro i x h
    cases i with
    | zero => cases h; exact ⟨⟨0x5000, 1⟩, ⟨5, 0, 0⟩, by decide, rfl, by decide, by decide +kernel⟩
    | succ i => cases h

end Gotcha.Props
