import Verif.Spec.Loader
import Verif.Props.Elf
import Verif.Demo.Facts
import Verif.Demo.Gnu
import Verif.Demo.Bad
/-
A process with a library that has two versions of foo and one of bar, and how the loader sees its objects.
-/
namespace Gotcha.Demo
open Elf Spec

/-- The symbols of a demo image that are in its hash section. -/
def expSyms (exps : List (Name × Addr)) : List DynSym :=
  ⟨[], 0, 0, 0⟩ :: exps.map (fun e => ⟨e.1, 0, e.2, 1⟩)

section
variable {exps : List (Name × Addr)} {rels : List (Addr × Name)} {g : Addr}

theorem info_section : ∃ l, DynSection (img exps rels g) l ∧ EntOk l ∧ info rels g = sectionInfo l := by
  refine ⟨[(DT_SYMTAB, S), (DT_STRTAB, T), (DT_HASH, H), (DT_JMPREL, J),
    (DT_PLTRELSZ, BitVec.ofNat 64 (24 * rels.length)), (DT_PLTREL, 7), (DT_PLTGOT, g)],
    ⟨?_, 0, [], rfl⟩, ?_, ?_⟩
  · intro e he
    simp only [List.mem_cons, List.not_mem_nil, or_false] at he
    rcases he with rfl | rfl | rfl | rfl | rfl | rfl | rfl <;> simp [DT_SYMTAB, DT_STRTAB, DT_HASH, DT_JMPREL,
      DT_PLTRELSZ, DT_PLTREL, DT_PLTGOT]
  · rintro t (rfl | rfl) v h <;> cases h
  · simp [sectionInfo, tagVal, info, DT_SYMTAB, DT_STRTAB, DT_HASH, DT_JMPREL, DT_PLTRELSZ, DT_PLTREL,
      DT_PLTGOT]

/-- The words of the hash section. -/
def hashWord (exps : List (Name × Addr)) : Nat → Option (BitVec 32)
  | 0 => some 1
  | 1 => some (BitVec.ofNat 32 (exps.length + 1))
  | 2 => some (BitVec.ofNat 32 exps.length)
  | k + 3 => if k ≤ exps.length then some (BitVec.ofNat 32 (k - 1)) else none

theorem word_img (k : Nat) (hk : k < 2 ^ 20) :
    (img exps rels g).word (H + BitVec.ofNat 64 (4 * k)) = hashWord exps k := by
  have hs : (H + BitVec.ofNat 64 (4 * k) - H).toNat = 4 * k := sub_at H 4 k (by omega)
  simp only [img, hs]
  rw [if_pos (by omega), Nat.mul_div_cancel_left _ (by omega)]
  rcases k with _ | _ | _ | k <;> rfl

theorem chained_img (hl : exps.length + rels.length < 2 ^ 18) (n : Nat) (hn : n ≤ exps.length) :
    Chained (img exps rels g) (H + BitVec.ofNat 64 (8 + 4 * 1)) (List.range' 1 n).reverse
      (BitVec.ofNat 32 n) := by
  induction n with
  | zero => rfl
  | succ n ih =>
    rw [List.range'_concat, List.reverse_append]
    refine ⟨by simp [Nat.add_comm], by omega, BitVec.ofNat 32 n, ?_, ih (by omega)⟩
    have e : H + BitVec.ofNat 64 (8 + 4 * 1) + BitVec.ofNat 64 (4 * (1 + 1 * n)) =
        H + BitVec.ofNat 64 (4 * (n + 1 + 3)) := by
      rw [BitVec.add_assoc, ← BitVec.ofNat_add]
      congr 2
      omega
    rw [e, word_img (n + 1 + 3) (by omega)]
    show (if n + 1 ≤ exps.length then some (BitVec.ofNat 32 (n + 1 - 1)) else none) = _
    rw [if_pos (by omega)]
    rfl

theorem tables_img (hl : exps.length + rels.length < 2 ^ 18) :
    Tables (img exps rels g) (info rels g) (expSyms exps) 1 where
  dyn := info_section
  tab := {
    short := by simp [expSyms]; omega
    sym := by
      intro i x hx
      have hi : i < exps.length + 1 := by
        have := (List.getElem?_eq_some_iff.1 hx).1
        simpa [expSyms] using this
      have hlt : i < (names exps rels).length := by simp [names]; omega
      have hs : (img exps rels g).sym ((info rels g).symtab + BitVec.ofNat 64 (24 * i)) =
          symAt exps rels i := sym_img i (by omega)
      rw [symAt, if_pos hlt] at hs
      refine ⟨_, hs, ?_⟩
      have hstr : (img exps rels g).str ((info rels g).strtab + (BitVec.ofNat 32 i).setWidth 64) =
          (names exps rels)[i]? := str_img i (by omega)
      simp only [hstr]
      cases i with
      | zero =>
        simp only [expSyms, List.getElem?_cons_zero, Option.some.injEq] at hx
        subst hx
        simp [names]
      | succ i =>
        have hi' : i < exps.length := by omega
        simp only [expSyms, List.getElem?_cons_succ, List.getElem?_map,
          List.getElem?_eq_getElem hi', Option.map_some, Option.some.injEq] at hx
        subst hx
        refine ⟨by simp [hi'], by simp; omega, ?_⟩
        simp only [names, List.cons_append, List.getElem?_cons_succ]
        rw [List.getElem?_append_left (by simpa using hi')]
        simp [hi']
    ver := fun h => absurd rfl h }
  gnu := fun h => absurd rfl h
  sysv := fun _ => ⟨1, {
    pos := by decide
    nb32 := by decide
    hdr0 := by
      have := word_img (exps := exps) (rels := rels) (g := g) 0 (by decide)
      rw [show (info rels g).elfHash = H from rfl]
      simpa [hashWord] using this
    bucket := by
      intro b hb
      obtain rfl : b = 0 := by omega
      refine ⟨BitVec.ofNat 32 exps.length, (List.range' 1 exps.length).reverse, ?_,
        chained_img hl _ (Nat.le_refl _), ?_, ?_⟩
      · rw [show (info rels g).elfHash = H from rfl]
        exact word_img 2 (by decide)
      · rw [List.nodup_reverse]; exact List.nodup_range'
      · intro i
        simp only [List.mem_reverse, List.mem_range'_1, Nat.mod_one, and_true, expSyms,
          List.length_cons, List.length_map]
        omega }⟩

end

/-- The loader's view of a demo object. -/
def objView (l : Lib) (exps : List (Name × Addr)) (rels : List (Addr × Name)) : ObjView where
  d := info rels l.addr
  syms := expSyms exps
  off := 1
  version _ := none
  kind _ := ⟨true, true, none⟩

theorem objView_of {lm name addr exps rels} (hl : exps.length + rels.length < 2 ^ 18) :
    (objView (obj lm name addr exps rels) exps rels).Of (obj lm name addr exps rels) where
  tables := tables_img hl
  hash := Or.inr (by show H ≠ 0; decide)
  top := fun h => absurd rfl h

/-- The library with two versions of foo. -/
def libv : Lib :=
  { lm := 0x5000, name := some (nm "/lib/libv.so"), addr := 0x50000000, ld := 0x50000000,
    img := gimg true false, phdrs := [⟨Got.PT_LOAD, 0, 0x100000⟩] }

def V1 : Name := nm "V1"
def V2 : Name := nm "V2"

/-- How the loader sees it; `res` is what the resolver of bar returns if bar is an IFUNC. -/
def libvView (res : Option Addr) : ObjView where
  d := ginfo true false
  syms := gsyms
  off := 1
  version i := if i = 2 then some V1 else if i = 3 then some V2 else none
  kind i := ⟨decide (i ≠ 0), decide (i ≠ 2), if i = 4 then res else none⟩

theorem libv_tables : Tables (gimg true false) (ginfo true false) gsyms 1 where
  dyn := gdyn true false
  tab := gSyms true false
  gnu := fun _ => ⟨2, 1, gGnu true false⟩
  sysv := fun h => absurd rfl h

theorem libvView_of (res : Option Addr) : (libvView res).Of libv where
  tables := libv_tables
  hash := Or.inl (by show gG ≠ 0; decide)
  top := by
    intro _ i x h
    have hi : i < 5 := (List.getElem?_eq_some_iff.1 h).1
    clear h
    refine ⟨ghalves.getD i 0, ?_, ?_⟩
    · show (gimg true false).half (gV + BitVec.ofNat 64 (2 * i)) = _
      interval_cases i <;> decide +kernel
    · show decide (i ≠ 2) = true ↔ _
      interval_cases i <;> decide

theorem rl_libv : rlOf libv = [] := by decide +kernel

def UV (l : Lib) : Prop := U l ∨ l = libv

/-- The loader has bound foo of the application to version V1, and bar to `b`. -/
def procV (b : Addr) : Process where
  env := env
  U := UV
  P := P
  libs := [app, libv, libc]
  mem := fun a => if a = 0x10000018 then 0x50001000 else if a = 0x10000020 then b else 0
  wr := fun _ => false

theorem hash_libv : ∀ l, U l → linkMapHash l ≠ linkMapHash libv := by
  rintro l (rfl | rfl | rfl) <;> decide +kernel

theorem names_libv : ∀ l, U l → l.name ≠ libv.name := by
  rintro l (rfl | rfl | rfl) <;> decide +kernel

theorem worldV : World env UV where
  page48 := world.page48
  page64 := world.page64
  ident := by
    rintro l l' (hl | rfl) (hl' | rfl) h
    · exact world.ident hl hl' h
    · exact absurd h (hash_libv l hl)
    · exact absurd h.symm (hash_libv l' hl')
    · rfl
  named := by
    rintro l (hl | rfl)
    · exact world.named hl
    · rfl
  exp := by
    rintro l (hl | rfl) n
    · exact world.exp hl n
    · exact Props.C51_exported_reads libv_tables _ _
  rel := by
    rintro l (hl | rfl)
    · exact world.rel hl
    · exact ⟨some [], by decide +kernel⟩

theorem libsV_U : ∀ l ∈ [app, libv, libc], UV l := by
  intro l hl
  simp only [List.mem_cons, List.not_mem_nil, or_false] at hl
  rcases hl with rfl | rfl | rfl
  · exact Or.inl (Or.inl rfl)
  · exact Or.inr rfl
  · exact Or.inl (Or.inr (Or.inl rfl))

theorem procV_ok (b : Addr) : (procV b).Ok where
  world := worldV
  objs := libsV_U
  nd := by show [app.lm, libv.lm, libc.lm].Nodup; decide
  placed := by
    intro l hl o ho hn ha
    rcases libsV_U l hl with h | rfl <;> rcases libsV_U o ho with h' | rfl
    · exact placed (L := [l, o]) (by simp [h, h']) l (by simp) o (by simp) hn ha
    · exact absurd hn (names_libv l h)
    · exact absurd hn.symm (names_libv o h')
    · rfl
  cover := by
    intro l hl s hs
    simp only [procV, List.mem_cons, List.not_mem_nil, or_false] at hl
    rcases hl with rfl | rfl | rfl
    · exact Or.inr (cover_app s hs)
    · rw [rl_libv] at hs; cases hs
    · rw [rl_libc] at hs; cases hs
  ne := by simp [procV]

def opsV : List Op := [ .wrap [⟨nm "foo", 0x50a, 10⟩, ⟨nm "bar", 0x50b, 11⟩] (some B) ]

theorem historyV (b : Addr) : History (procV b) True opsV where
  honest := ⟨show (List.map UBinding.handle (List.flatMap tableOf opsV) ++
      [env.hDlopen, env.hDlsym, env.hLibcMain, env.hMain]).Nodup by decide +kernel, by
      intro u hu
      simp only [opsV, List.flatMap_cons, List.flatMap_nil, tableOf, List.append_nil,
        List.mem_cons, List.not_mem_nil, or_false] at hu
      rcases hu with rfl | rfl
      · show P 0x50a = some 10; decide
      · show P 0x50b = some 11; decide, envOk⟩
  loader := ⟨fun _ => by show firstDef none [app, libv, libc] (nm "dlopen") ≠ none; decide +kernel, trivial⟩
  cons := by
    intro _ l hl l' hl' x hx y hy e
    have key : ∀ l ∈ [app, libv, libc], ∀ x ∈ rlOf l, l = app := by
      intro l hl x hx
      simp only [List.mem_cons, List.not_mem_nil, or_false] at hl
      rcases hl with rfl | rfl | rfl
      · rfl
      · rw [rl_libv] at hx; cases hx
      · rw [rl_libc] at hx; cases hx
    obtain rfl := key l hl x hx
    obtain rfl := key l' hl' y hy
    exact cons (L := [app]) (by simp [U]) app (by simp) app (by simp) x hx y hy e
  filter := by
    intro _ f hf
    simp [opsV] at hf
  main := by
    intro _
    refine mainAlone_of ⟨?_, trivial⟩
    rintro ⟨u, hu, e⟩
    simp only [List.mem_cons, List.not_mem_nil, or_false] at hu
    rcases hu with rfl | rfl
    · exact absurd e (show nm "foo" ≠ nm "main" by decide +kernel)
    · exact absurd e (show nm "bar" ≠ nm "main" by decide +kernel)
  short := fun _ => by decide

theorem bar_own : nm "bar" ∉ ownNames := by decide +kernel

end Gotcha.Demo
