import Verif.Spec.Elf
import Mathlib.Data.List.Induction
/-
INIT_DYNAMIC as a lookup of tags, and the relocation loops on well-formed tables.
-/
namespace Gotcha.Elf
open Gotcha Spec

theorem tagVal_snoc (l : List (Nat × Addr)) (e : Nat × Addr) (t : Nat) :
    tagVal (l ++ [e]) t = if e.1 = t then some e.2 else tagVal l t := by
  unfold tagVal
  rw [List.reverse_append]
  simp only [List.reverse_cons, List.reverse_nil, List.nil_append, List.singleton_append,
    List.find?_cons]
  by_cases h : e.1 = t <;> simp [h]

/-- The switch, entry by entry. -/
def dynFold (l : List (Nat × Addr)) : DynInfo := l.foldl (fun d e => dynEntry d e.1 e.2) {}

theorem dynLoop_eq (l : List (Nat × Addr)) (v : Addr) (rest : List (Nat × Addr)) :
    ∀ d, (∀ e ∈ l, e.1 ≠ 0) →
    dynLoop (l ++ (0, v) :: rest) d = .ok (l.foldl (fun d e => dynEntry d e.1 e.2) d) := by
  induction l with
  | nil => intro d _; simp [dynLoop]
  | cons e l ih =>
    intro d h
    obtain ⟨t, x⟩ := e
    have h0 : t ≠ 0 := h (t, x) (List.mem_cons_self ..)
    rw [List.cons_append, dynLoop, if_neg h0, ih _ (fun e he => h e (List.mem_cons_of_mem _ he))]
    rfl

theorem dynSection_loop {img : Image} {l : List (Nat × Addr)} (h : DynSection img l) :
    ∃ l', img.dyn = some l' ∧ dynLoop l' {} = .ok (dynFold l) := by
  obtain ⟨h0, v, rest, h1⟩ := h
  exact ⟨_, h1, dynLoop_eq l v rest {} h0⟩

/-- One field of the result is the value of its tag. -/
theorem field_eq {α : Type} (f : DynInfo → α) (t : Nat) (g : Addr → α)
    (hf : ∀ d t' v, f (dynEntry d t' v) = if t' = t then g v else f d) (l : List (Nat × Addr)) :
    f (dynFold l) = ((tagVal l t).map g).getD (f {}) := by
  induction l using List.reverseRecOn with
  | nil => rfl
  | append_singleton l e ih =>
    rw [tagVal_snoc, dynFold, List.foldl_append]
    simp only [List.foldl_cons, List.foldl_nil]
    rw [hf]
    split
    · rfl
    · exact ih

/-- Case distinction over the tags. -/
macro "fld" : tactic => `(tactic| (
  intro d t' v
  by_cases h0 : t' = DT_REL
  · subst h0; rfl
  by_cases h1 : t' = DT_RELSZ
  · subst h1; rfl
  by_cases h2 : t' = DT_RELENT
  · subst h2; rfl
  by_cases h3 : t' = DT_RELA
  · subst h3; rfl
  by_cases h4 : t' = DT_RELASZ
  · subst h4; rfl
  by_cases h5 : t' = DT_RELAENT
  · subst h5; rfl
  by_cases h6 : t' = DT_PLTRELSZ
  · subst h6; rfl
  by_cases h7 : t' = DT_PLTGOT
  · subst h7; rfl
  by_cases h8 : t' = DT_HASH
  · subst h8; rfl
  by_cases h9 : t' = DT_STRTAB
  · subst h9; rfl
  by_cases h10 : t' = DT_SYMTAB
  · subst h10; rfl
  by_cases h11 : t' = DT_PLTREL
  · subst h11; rfl
  by_cases h12 : t' = DT_JMPREL
  · subst h12; rfl
  by_cases h13 : t' = DT_GNU_HASH
  · subst h13; rfl
  by_cases h14 : t' = DT_VERSYM
  · subst h14; rfl
  simp only [dynEntry, if_neg h0, if_neg h1, if_neg h2, if_neg h3, if_neg h4, if_neg h5, if_neg h6, if_neg h7, if_neg h8, if_neg h9, if_neg h10, if_neg h11, if_neg h12, if_neg h13, if_neg h14]))

variable (l : List (Nat × Addr))

theorem fold_jmprel : (dynFold l).jmprel = (tagVal l Tag.JMPREL).getD 0 := by
  show (dynFold l).jmprel = (tagVal l DT_JMPREL).getD 0
  rw [field_eq (·.jmprel) DT_JMPREL id (by fld)]; simp

theorem fold_symtab : (dynFold l).symtab = (tagVal l Tag.SYMTAB).getD 0 := by
  show (dynFold l).symtab = (tagVal l DT_SYMTAB).getD 0
  rw [field_eq (·.symtab) DT_SYMTAB id (by fld)]; simp

theorem fold_strtab : (dynFold l).strtab = (tagVal l Tag.STRTAB).getD 0 := by
  show (dynFold l).strtab = (tagVal l DT_STRTAB).getD 0
  rw [field_eq (·.strtab) DT_STRTAB id (by fld)]; simp

theorem fold_rela : (dynFold l).rela = (tagVal l Tag.RELA).getD 0 := by
  show (dynFold l).rela = (tagVal l DT_RELA).getD 0
  rw [field_eq (·.rela) DT_RELA id (by fld)]; simp

theorem fold_rel : (dynFold l).rel = (tagVal l Tag.REL).getD 0 := by
  show (dynFold l).rel = (tagVal l DT_REL).getD 0
  rw [field_eq (·.rel) DT_REL id (by fld)]; simp

theorem fold_got : (dynFold l).got = (tagVal l Tag.PLTGOT).getD 0 := by
  show (dynFold l).got = (tagVal l DT_PLTGOT).getD 0
  rw [field_eq (·.got) DT_PLTGOT id (by fld)]; simp

theorem fold_gnuHash : (dynFold l).gnuHash = (tagVal l Tag.GNU_HASH).getD 0 := by
  show (dynFold l).gnuHash = (tagVal l DT_GNU_HASH).getD 0
  rw [field_eq (·.gnuHash) DT_GNU_HASH id (by fld)]; simp

theorem fold_elfHash : (dynFold l).elfHash = (tagVal l Tag.HASH).getD 0 := by
  show (dynFold l).elfHash = (tagVal l DT_HASH).getD 0
  rw [field_eq (·.elfHash) DT_HASH id (by fld)]; simp

theorem fold_versym : (dynFold l).versym = (tagVal l Tag.VERSYM).getD 0 := by
  show (dynFold l).versym = (tagVal l DT_VERSYM).getD 0
  rw [field_eq (·.versym) DT_VERSYM id (by fld)]; simp

theorem fold_jmprelSize :
    (dynFold l).jmprelSize = ((tagVal l Tag.PLTRELSZ).map (·.setWidth 32)).getD 0 := by
  show (dynFold l).jmprelSize = ((tagVal l DT_PLTRELSZ).map (·.setWidth 32)).getD 0
  rw [field_eq (·.jmprelSize) DT_PLTRELSZ (·.setWidth 32) (by fld)]

theorem fold_relaSize :
    (dynFold l).relaSize = ((tagVal l Tag.RELASZ).map (·.setWidth 32)).getD 0 := by
  show (dynFold l).relaSize = ((tagVal l DT_RELASZ).map (·.setWidth 32)).getD 0
  rw [field_eq (·.relaSize) DT_RELASZ (·.setWidth 32) (by fld)]

theorem fold_relaEsz :
    (dynFold l).relaEsz = ((tagVal l Tag.RELAENT).map (·.setWidth 32)).getD 1 := by
  show (dynFold l).relaEsz = ((tagVal l DT_RELAENT).map (·.setWidth 32)).getD 1
  rw [field_eq (·.relaEsz) DT_RELAENT (·.setWidth 32) (by fld)]

theorem fold_relSize :
    (dynFold l).relSize = ((tagVal l Tag.RELSZ).map (·.setWidth 32)).getD 0 := by
  show (dynFold l).relSize = ((tagVal l DT_RELSZ).map (·.setWidth 32)).getD 0
  rw [field_eq (·.relSize) DT_RELSZ (·.setWidth 32) (by fld)]

theorem fold_relEsz :
    (dynFold l).relEsz = ((tagVal l Tag.RELENT).map (·.setWidth 32)).getD 1 := by
  show (dynFold l).relEsz = ((tagVal l DT_RELENT).map (·.setWidth 32)).getD 1
  rw [field_eq (·.relEsz) DT_RELENT (·.setWidth 32) (by fld)]

theorem fold_isRela : (dynFold l).isRela = ((tagVal l Tag.PLTREL).map
    (fun v => decide (v = BitVec.ofNat 64 Tag.RELA))).getD false := by
  show (dynFold l).isRela = ((tagVal l DT_PLTREL).map (fun v => decide (v = BitVec.ofNat 64 DT_RELA))).getD false
  rw [field_eq (·.isRela) DT_PLTREL (fun v => decide (v = BitVec.ofNat 64 DT_RELA)) (by fld)]

theorem initDynamic_section {img : Image} {l : List (Nat × Addr)} (hd : DynSection img l)
    (he : EntOk l) : initDynamic img = .ok (some (dynFold l)) := by
  obtain ⟨l', h1, h2⟩ := dynSection_loop hd
  unfold initDynamic
  rw [h1]
  simp only [h2]
  rw [if_neg, if_neg]
  · rintro ⟨-, h⟩
    rw [fold_relaEsz] at h
    cases hv : tagVal l Tag.RELAENT with
    | none => rw [hv] at h; exact absurd h (by decide)
    | some v => rw [hv] at h; exact he _ (Or.inr rfl) v hv h
  · rintro ⟨-, h⟩
    rw [fold_relEsz] at h
    cases hv : tagVal l Tag.RELENT with
    | none => rw [hv] at h; exact absurd h (by decide)
    | some v => rw [hv] at h; exact he _ (Or.inl rfl) v hv h

/-- INIT_DYNAMIC is the lookup of the tags. -/
theorem dynFold_eq : dynFold l = sectionInfo l := by
  have h : ∀ a b : DynInfo, a.rela = b.rela → a.rel = b.rel → a.jmprel = b.jmprel →
      a.symtab = b.symtab → a.gnuHash = b.gnuHash → a.elfHash = b.elfHash → a.got = b.got →
      a.versym = b.versym → a.strtab = b.strtab → a.relSize = b.relSize → a.relEsz = b.relEsz →
      a.relaSize = b.relaSize → a.relaEsz = b.relaEsz → a.jmprelSize = b.jmprelSize →
      a.isRela = b.isRela → a = b := by
    rintro ⟨⟩ ⟨⟩; simp only; rintro rfl rfl rfl rfl rfl rfl rfl rfl rfl rfl rfl rfl rfl rfl rfl; rfl
  apply h
  · exact fold_rela l
  · exact fold_rel l
  · exact fold_jmprel l
  · exact fold_symtab l
  · exact fold_gnuHash l
  · exact fold_elfHash l
  · exact fold_got l
  · exact fold_versym l
  · exact fold_strtab l
  · rw [fold_relSize]; cases h : tagVal l Tag.RELSZ <;> simp [sectionInfo, h]
  · rw [fold_relEsz]; cases h : tagVal l Tag.RELENT <;> simp [sectionInfo, h]
  · rw [fold_relaSize]; cases h : tagVal l Tag.RELASZ <;> simp [sectionInfo, h]
  · rw [fold_relaEsz]; cases h : tagVal l Tag.RELAENT <;> simp [sectionInfo, h]
  · rw [fold_jmprelSize]; cases h : tagVal l Tag.PLTRELSZ <;> simp [sectionInfo, h]
  · rw [fold_isRela]; cases h : tagVal l Tag.PLTREL <;> simp [sectionInfo, h]

/-- The relocation loop reads a table. -/
theorem relocsInt_eq {img : Image} {load : Addr → Option Reloc} {d : DynInfo} {base : Addr} {sz : Nat}
    {L : List (Addr × Name)} (h : RelocTable img load d.symtab d.strtab base sz L) (n : Nat) :
    ∀ i, i + n = L.length → relocsInt img load d base sz n i = .ok (L.drop i) := by
  induction n with
  | zero =>
    intro i hi
    rw [List.drop_eq_nil_of_le (by omega)]
    rfl
  | succ n ih =>
    intro i hi
    have hlt : i < L.length := by omega
    obtain ⟨r, s, h1, h2, h3, h4⟩ := h i _ (List.getElem?_eq_getElem hlt)
    rw [relocsInt]
    simp only [at', h1, h3, h4, ih (i + 1) (by omega)]
    rw [List.drop_eq_getElem_cons hlt, h2]

end Gotcha.Elf
