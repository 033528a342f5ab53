import Verif.Model.Got
/-
Concrete ELF images for the examples and counterexamples: given exported functions and call-site
relocations, an image with a dynamic section, a SysV hash table with one bucket, a symbol table, a
string table and a PLT relocation table; and what the model of the ELF code reads from it.
-/
namespace Gotcha.Demo
open Elf

/-- Addresses of the tables of a demo image. -/
def S : Addr := 0x100000000000
def T : Addr := 0x200000000000
def H : Addr := 0x300000000000
def J : Addr := 0x400000000000

/-- Symbol names: entry 0 is empty, then the exported names, then the imported ones. -/
def names (exps : List (Name × Addr)) (rels : List (Addr × Name)) : List Name :=
  [] :: exps.map (·.1) ++ rels.map (·.2)

def symAt (exps : List (Name × Addr)) (rels : List (Addr × Name)) (i : Nat) : Option Sym :=
  if i < (names exps rels).length then
    some ⟨BitVec.ofNat 32 i, if i = 0 then 0 else ((exps[i - 1]?).map (·.2)).getD 0,
      if i = 0 then 0 else if i ≤ exps.length then 1 else 0⟩
  else none

/-- An image exporting `exps` (name, value) and calling through the slots `rels` (offset, name);
`pltgot` is its DT_PLTGOT. -/
def img (exps : List (Name × Addr)) (rels : List (Addr × Name)) (pltgot : Addr) : Image where
  dyn := some [(DT_SYMTAB, S), (DT_STRTAB, T), (DT_HASH, H), (DT_JMPREL, J),
    (DT_PLTRELSZ, BitVec.ofNat 64 (24 * rels.length)), (DT_PLTREL, 7), (DT_PLTGOT, pltgot), (0, 0)]
  sym a := if (a - S).toNat % 24 = 0 then symAt exps rels ((a - S).toNat / 24) else none
  rela a := if (a - J).toNat % 24 = 0 then
      (rels[(a - J).toNat / 24]?).map
        (fun r => ⟨r.1, BitVec.ofNat 32 (1 + exps.length + (a - J).toNat / 24)⟩)
    else none
  rel _ := none
  word a := if (a - H).toNat % 4 = 0 then
      match (a - H).toNat / 4 with
      | 0 => some 1
      | 1 => some (BitVec.ofNat 32 (exps.length + 1))
      | 2 => some (BitVec.ofNat 32 exps.length)
      | k + 3 => if k ≤ exps.length then some (BitVec.ofNat 32 (k - 1)) else none
    else none
  half _ := none
  str a := (names exps rels)[(a - T).toNat]?

variable {exps : List (Name × Addr)} {rels : List (Addr × Name)} {g : Addr}

def info (rels : List (Addr × Name)) (g : Addr) : DynInfo :=
  { symtab := S, strtab := T, elfHash := H, jmprel := J,
    jmprelSize := BitVec.ofNat 32 (24 * rels.length), isRela := true, got := g }

theorem setWidth_ofNat (n : Nat) : (BitVec.ofNat 64 n).setWidth 32 = BitVec.ofNat 32 n := by
  apply BitVec.eq_of_toNat_eq
  simp only [BitVec.toNat_setWidth, BitVec.toNat_ofNat]
  omega

theorem initDynamic_img : initDynamic (img exps rels g) = .ok (some (info rels g)) := by
  simp [initDynamic, img, dynLoop, dynEntry, DT_PLTRELSZ, DT_PLTGOT, DT_HASH, DT_STRTAB, DT_SYMTAB,
    DT_RELA, DT_RELASZ, DT_RELAENT, DT_REL, DT_RELSZ, DT_RELENT, DT_PLTREL, DT_JMPREL, DT_GNU_HASH,
    DT_VERSYM, setWidth_ofNat, info]

theorem sub_at (base : Addr) (sz i : Nat) (h : sz * i < 2 ^ 64) :
    (at' base sz i - base).toNat = sz * i := by
  have : at' base sz i - base = BitVec.ofNat 64 (sz * i) := by
    unfold at'; rw [BitVec.add_comm, BitVec.add_sub_cancel]
  rw [this, BitVec.toNat_ofNat, Nat.mod_eq_of_lt h]

theorem sym_img (i : Nat) (h : i < 2 ^ 32) :
    (img exps rels g).sym (at' S 24 i) = symAt exps rels i := by
  have := sub_at S 24 i (by omega)
  simp only [img, this]
  rw [if_pos (by omega), Nat.mul_div_cancel_left _ (by omega)]

theorem str_img (i : Nat) (h : i < 2 ^ 32) :
    (img exps rels g).str (T + (BitVec.ofNat 32 i).setWidth 64) = (names exps rels)[i]? := by
  have : (T + (BitVec.ofNat 32 i).setWidth 64 - T).toNat = i := by
    rw [BitVec.add_comm, BitVec.add_sub_cancel, BitVec.toNat_setWidth, BitVec.toNat_ofNat]
    omega
  simp only [img, this]

theorem nameIs_img (hl : exps.length + rels.length < 2 ^ 20) (n : Name) (i : Nat)
    (hi : i ≤ exps.length) (h0 : 0 < i) :
    nameIs (img exps rels g) (info rels g) n (BitVec.ofNat 32 i) =
      .ok (decide (n = (exps[i - 1]?.map (·.1)).getD [])) := by
  have hin : (BitVec.ofNat 32 i).toNat = i := by rw [BitVec.toNat_ofNat]; omega
  have hlt : i < (names exps rels).length := by simp [names]; omega
  unfold nameIs
  rw [hin, show (info rels g).symtab = S from rfl, sym_img i (by omega), symAt, if_pos hlt]
  simp only
  rw [show (info rels g).strtab = T from rfl, str_img i (by omega)]
  obtain ⟨k, rfl⟩ := Nat.exists_eq_succ_of_ne_zero (show i ≠ 0 by omega)
  have hk : k < exps.length := by omega
  have : (names exps rels)[k + 1]? = some (exps[k]).1 := by
    simp only [names, List.cons_append, List.getElem?_cons_succ]
    rw [List.getElem?_append_left (by simpa using hk)]
    simp [hk]
  rw [this]
  simp [hk]

/-- What the SysV lookup finds among the first `i` exported symbols. -/
def findExp (exps : List (Name × Addr)) (n : Name) : Nat → Option (BitVec 32)
  | 0 => none
  | i + 1 => if n = (exps[i]?.map (·.1)).getD [] then some (BitVec.ofNat 32 (i + 1))
      else findExp exps n i

theorem elfLoop_img (hl : exps.length + rels.length < 2 ^ 20) (n : Name) (i : Nat) :
    ∀ fuel, i ≤ exps.length → i < fuel →
    elfLoop (img exps rels g) (info rels g) (H + 12) n fuel (BitVec.ofNat 32 i) none 0 =
      .ok (findExp exps n i) := by
  induction i with
  | zero =>
    intro fuel _ hf
    obtain ⟨k, rfl⟩ := Nat.exists_eq_succ_of_ne_zero (show fuel ≠ 0 by omega)
    simp [elfLoop, findExp]
  | succ i ih =>
    intro fuel hi hf
    obtain ⟨k, rfl⟩ := Nat.exists_eq_succ_of_ne_zero (show fuel ≠ 0 by omega)
    have hne : BitVec.ofNat 32 (i + 1) ≠ 0 := by
      intro hc
      have := congrArg BitVec.toNat hc
      simp at this
      omega
    have hin : (BitVec.ofNat 32 (i + 1)).toNat = i + 1 := by rw [BitVec.toNat_ofNat]; omega
    have hword : (img exps rels g).word (at' (H + 12) 4 (i + 1)) = some (BitVec.ofNat 32 i) := by
      have hsub : (at' (H + 12) 4 (i + 1) - H).toNat = 4 * (i + 1 + 3) := by
        have : at' (H + 12) 4 (i + 1) = at' H 4 (i + 1 + 3) := by
          unfold at'
          apply BitVec.eq_of_toNat_eq
          simp [BitVec.toNat_add, H]
          omega
        rw [this, sub_at _ _ _ (by omega)]
      simp only [img, hsub]
      rw [if_pos (by omega), Nat.mul_div_cancel_left _ (by omega)]
      simp only
      rw [if_pos hi]; rfl
    have hver : (info rels g).versym = 0 := rfl
    rw [elfLoop]
    simp only [if_neg hne, nameIs_img hl n (i + 1) hi (by omega), Nat.add_sub_cancel, onMatch, hver,
      if_true, hin, hword]
    by_cases hn : n = (exps[i]?.map (·.1)).getD []
    · simp [hn, findExp]
    · simp only [hn, decide_false, findExp, if_false]
      exact ih k (by omega) (by omega)

theorem findExp_some (n : Name) (i : Nat) (r) (h : findExp exps n i = some r) :
    ∃ j, j < i ∧ r = BitVec.ofNat 32 (j + 1) ∧ n = (exps[j]?.map (·.1)).getD [] := by
  induction i with
  | zero => cases h
  | succ i ih =>
    unfold findExp at h
    split at h
    · cases h; exact ⟨i, by omega, rfl, by assumption⟩
    · obtain ⟨j, h1, h2, h3⟩ := ih h
      exact ⟨j, by omega, h2, h3⟩

/-- What `lookup_exported_symbol` finds in a demo image. -/
theorem exported_img (hl : exps.length + rels.length < 2 ^ 20) (base : Addr) (n : Name) :
    exported (img exps rels g) base n =
      .ok ((exps.reverse.find? (fun e => decide (n = e.1))).map (fun e => e.2 + base)) := by
  have h1 : (info rels g).gnuHash = 0 := rfl
  have h2 : (info rels g).elfHash = H := rfl
  have hH : H ≠ 0 := by decide
  have hlk : lookupElf (img exps rels g) (info rels g) n = .ok (findExp exps n exps.length) := by
    unfold lookupElf
    rw [h2]
    have w0 : (img exps rels g).word H = some 1 := by
      have : (H - H).toNat = 0 := by decide
      simp only [img, this]
      rfl
    rw [w0]
    have hb : (elfHashFunc n % 1#32).toNat = 0 := by simp
    have w2 : (img exps rels g).word (at' (H + 8) 4 0) = some (BitVec.ofNat 32 exps.length) := by
      have : (at' (H + 8) 4 0 - H).toNat = 8 := by decide
      simp only [img, this]
      rfl
    have hc : at' (H + 8) 4 (1#32).toNat = H + 12 := by decide
    simp only [show (1 : BitVec 32) ≠ 0 by decide, if_false]
    rw [show (elfHashFunc n % (1 : BitVec 32)).toNat = 0 from hb, w2]
    simp only
    rw [show at' (H + 8) 4 (1 : BitVec 32).toNat = H + 12 from hc]
    exact elfLoop_img hl n exps.length (2 ^ 32 + 1) (Nat.le_refl _) (by omega)
  have hfind : ∀ i, i ≤ exps.length → (findExp exps n i).map
      (fun r => ((exps[r.toNat - 1]?).map (fun e => e.2 + base)).getD 0) =
      ((exps.take i).reverse.find? (fun e => decide (n = e.1))).map (fun e => e.2 + base) := by
    intro i
    induction i with
    | zero => intro _; rfl
    | succ i ih =>
      intro hi
      have hlt : i < exps.length := by omega
      rw [List.take_succ_eq_append_getElem hlt, List.reverse_append]
      simp only [List.reverse_cons, List.reverse_nil, List.nil_append, List.singleton_append,
        List.find?_cons, findExp, List.getElem?_eq_getElem hlt, Option.map_some, Option.getD_some]
      by_cases hn : n = (exps[i]).1
      · have hin : (BitVec.ofNat 32 (i + 1)).toNat = i + 1 := by rw [BitVec.toNat_ofNat]; omega
        simp [hn, hin, hlt]
      · simp only [hn, if_false, decide_false]
        exact ih (by omega)
  have := hfind exps.length (Nat.le_refl _)
  rw [List.take_length] at this
  unfold exported
  rw [initDynamic_img]
  simp only [h1, h2, hH, and_false, if_false, ne_eq, not_true_eq_false, not_false_eq_true, and_self,
    if_true, hlk]
  rw [← this]
  cases hf : findExp exps n exps.length with
  | none => rfl
  | some r =>
    obtain ⟨j, hj, rfl, hn⟩ := findExp_some n _ _ hf
    have hin : (BitVec.ofNat 32 (j + 1)).toNat = j + 1 := by rw [BitVec.toNat_ofNat]; omega
    have hlt : j + 1 < (names exps rels).length := by simp [names]; omega
    simp only [hin, show (info rels g).symtab = S from rfl, sym_img (j + 1) (by omega), symAt,
      if_pos hlt, Option.map_some]
    simp [hj, show j + 1 ≤ exps.length by omega]

/-- The call-site relocations of a demo image. -/
theorem relocs_img (hl : exps.length + rels.length < 2 ^ 20) :
    relocs (img exps rels g) = .ok (some rels) := by
  have hint : ∀ k i, i + k = rels.length →
      relocsInt (img exps rels g) (img exps rels g).rela (info rels g) J 24 k i =
        .ok (rels.drop i) := by
    intro k
    induction k with
    | zero => intro i hi; simp [relocsInt, List.drop_of_length_le (show rels.length ≤ i by omega)]
    | succ k ih =>
      intro i hi
      have hlt : i < rels.length := by omega
      have hr : (img exps rels g).rela (at' J 24 i) =
          some ⟨(rels[i]).1, BitVec.ofNat 32 (1 + exps.length + i)⟩ := by
        have := sub_at J 24 i (by omega)
        simp only [img, this]
        rw [if_pos (by omega), Nat.mul_div_cancel_left _ (by omega)]
        simp [hlt]
      have hin : (BitVec.ofNat 32 (1 + exps.length + i)).toNat = 1 + exps.length + i := by
        rw [BitVec.toNat_ofNat]; omega
      have hlt2 : 1 + exps.length + i < (names exps rels).length := by simp [names]; omega
      have hnm : (names exps rels)[1 + exps.length + i]? = some (rels[i]).2 := by
        simp only [names, List.cons_append]
        rw [show 1 + exps.length + i = (exps.length + i) + 1 by omega, List.getElem?_cons_succ,
          List.getElem?_append_right (by simp)]
        simp [hlt]
      rw [relocsInt, hr]
      simp only [hin, show (info rels g).symtab = S from rfl, sym_img _ (show 1 + exps.length + i
        < 2 ^ 32 by omega), symAt, if_pos hlt2, show (info rels g).strtab = T from rfl,
        str_img _ (show 1 + exps.length + i < 2 ^ 32 by omega), hnm, ih (i + 1) (by omega)]
      rw [List.drop_eq_getElem_cons hlt]
  have hcnt : (info rels g).jmprelCount = rels.length := by
    simp only [DynInfo.jmprelCount, info, if_true, BitVec.toNat_ofNat]
    omega
  unfold relocs
  rw [initDynamic_img]
  simp only [relocsOf, hcnt, show (info rels g).isRela = true from rfl,
    show (info rels g).jmprel = J from rfl, if_true, hint rels.length 0 (by omega),
    show (info rels g).rela = 0 from rfl, ne_eq, not_true_eq_false, if_false, List.drop_zero]

end Gotcha.Demo
