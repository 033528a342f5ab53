import Verif.Proof.TextRead
/-
Two messages with the same line are the same.
-/
namespace Gotcha.Spec.Text
open Spec.Printf (integer numeral)

/-- The line number of a message, made unique: gotcha.c and gotcha_dl.c both have a message in line 158. -/
def rank (p : Name × Nat) : Nat := if p = (nm "gotcha_dl.c", 158) then 0 else p.2

/-- The same, for each message. -/
def code : Note → Nat
  | .dlsymCalled _ _ => 0
  | n => n.place.2

theorem code_eq (n : Note) : code n = rank n.place := by
  cases n with
  | one m => cases m <;> (simp only [code, Note.place, Msg.place]; decide +kernel)
  | newLib u l => cases u <;> (simp only [code, Note.place]; decide +kernel)
  | mark k m r => cases k <;> (simp only [code, Note.place]; decide +kernel)
  | markFailed k => cases k <;> (simp only [code, Note.place]; decide +kernel)
  | _ => simp only [code, Note.place]; decide +kernel

/-- Which message it is, without its values. -/
def skel : Note → Note
  | .one m => .one (match m with
    | .wrapCalled _ _ => .wrapCalled none 0
    | .noTool _ => .noTool []
    | .newTool _ => .newTool []
    | .symbol _ => .symbol []
    | .couldNot _ _ => .couldNot 0 0
    | .wrapDone => .wrapDone
    | .setPriority _ _ => .setPriority [] 0
    | .dlopenCalled _ _ => .dlopenCalled none 0)
  | .dlsymCalled _ _ => .dlsymCalled .next []
  | .clear _ => .clear 0
  | .point _ _ => .point 0 none
  | .vdso _ _ => .vdso 0 []
  | .searching _ => .searching []
  | .noSymbols _ => .noSymbols []
  | .checkGnu _ _ => .checkGnu [] []
  | .checkElf _ _ => .checkElf [] []
  | .notIn _ _ => .notIn [] []
  | .hidden _ _ => .hidden [] []
  | .found _ _ _ => .found [] [] 0
  | .lookingUp _ => .lookingUp []
  | .newLib u _ => .newLib u []
  | .wrapMain => .wrapMain
  | .rewrite _ _ _ => .rewrite [] [] 0
  | .newEntry _ => .newEntry []
  | .toHead _ _ => .toHead 0 0
  | .compare _ _ _ => .compare 0 [] 0
  | .already => .already
  | .after _ => .after []
  | .remap _ _ _ _ => .remap [] 0 [] 0
  | .mark k _ _ => .mark k [] (0, 0)
  | .markFailed k => .markFailed k
  | .skip _ => .skip []
  | .upToDate _ => .upToDate []
  | .callSites _ => .callSites 0
  | .willMap _ _ _ => .willMap 0 [] 0
  | .initNull _ => .initNull 0
  | .generation _ => .generation 0
  | .creating => .creating
  | .tableFor _ _ => .tableFor 0 []
  | .processing _ => .processing 0
  | .needsLookup _ => .needsLookup []
  | .stash _ => .stash []
  | .needsBinding _ => .needsBinding []
  | .notInLibrary _ _ => .notInLibrary [] []
  | .notAfterCaller _ => .notAfterCaller []
  | .rebind _ _ => .rebind [] []
  | .inner _ _ => .inner [] []
  | .still _ => .still []
  | .searchNew => .searchNew
  | .updateGots => .updateGots
  | .noSuchTool _ => .noSuchTool []

/-- All messages without values. -/
def skels : List Note :=
  [.one (.wrapCalled none 0), .one (.noTool []), .one (.newTool []), .one (.symbol []), .one (.couldNot 0 0),
    .one .wrapDone, .one (.setPriority [] 0), .one (.dlopenCalled none 0), .dlsymCalled .next [], .clear 0,
    .point 0 none, .vdso 0 [], .searching [], .noSymbols [], .checkGnu [] [], .checkElf [] [], .notIn [] [],
    .hidden [] [], .found [] [] 0, .lookingUp [], .newLib false [], .newLib true [], .wrapMain, .rewrite [] [] 0,
    .newEntry [], .toHead 0 0, .compare 0 [] 0, .already, .after [], .remap [] 0 [] 0, .mark .gotAfterPlt [] (0, 0),
    .mark .pltAfterGot [] (0, 0), .mark .gotOnly [] (0, 0), .mark .pltOnly [] (0, 0), .markFailed .gotAfterPlt,
    .markFailed .pltAfterGot, .markFailed .gotOnly, .markFailed .pltOnly, .skip [], .upToDate [], .callSites 0,
    .willMap 0 [] 0, .initNull 0, .generation 0, .creating, .tableFor 0 [], .processing 0, .needsLookup [], .stash [],
    .needsBinding [], .notInLibrary [] [], .notAfterCaller [], .rebind [] [], .inner [] [], .still [], .searchNew,
    .updateGots, .noSuchTool []]

theorem skel_mem (n : Note) : skel n ∈ skels := by
  cases n with
  | one m => cases m <;> simp [skel, skels]
  | newLib u l => cases u <;> simp [skel, skels]
  | mark k m r => cases k <;> simp [skel, skels]
  | markFailed k => cases k <;> simp [skel, skels]
  | _ => simp [skel, skels]

theorem code_skel (n : Note) : code (skel n) = code n := by
  cases n with
  | one m => cases m <;> rfl
  | newLib u l => cases u <;> rfl
  | mark k m r => cases k <;> rfl
  | markFailed k => cases k <;> rfl
  | _ => rfl

theorem skels_apart : ∀ n ∈ skels, ∀ m ∈ skels, code n = code m → n = m := by
  decide +kernel

/-- The place tells which message it is. -/
theorem skel_of_place {n m : Note} (h : n.place = m.place) : skel n = skel m := by
  refine skels_apart _ (skel_mem n) _ (skel_mem m) ?_
  rw [code_skel, code_skel, code_eq, code_eq, h]

theorem shape_skel (L : Layout) (n : Note) : (fields L n).map sh = (fields L (skel n)).map sh := by
  cases n with
  | one m => cases m <;> rfl
  | newLib u l => cases u <;> rfl
  | mark k m r => cases k <;> rfl
  | markFailed k => cases k <;> rfl
  | _ => rfl

theorem shape_apart (L : Layout) (n : Note) : apart ((fields L n).map sh) = true := by
  cases n with
  | one m => cases m <;> (simp only [fields, msgFields, List.map_cons, List.map_nil, sh]; decide +kernel)
  | mark k m r => cases k <;> (simp only [fields, List.map_cons, List.map_nil, sh]; decide +kernel)
  | markFailed k => cases k <;> (simp only [fields, List.map_cons, List.map_nil, sh]; decide +kernel)
  | _ => simp only [fields, List.map_cons, List.map_nil, sh]; decide +kernel

/-- The objects with numbers below `k` are at different places, and no handle looks like RTLD_NEXT. -/
structure Distinct (L : Layout) (k : Nat) : Prop where
  var : ∀ x < k, ∀ y < k, L.var x = L.var y → x = y
  field : ∀ x < k, ∀ y < k, L.field x = L.field y → x = y
  handle : ∀ x < k, ∀ y < k, L.handle x = L.handle y → x = y
  next : ∀ x < k, L.handle x ≠ -1#64

/-- The object of which the address is printed has a number below `k`. -/
def Below (k : Nat) : Note → Prop
  | .clear x | .point x _ | .dlsymCalled (.other x) _ => x < k
  | _ => True

theorem Distinct.dl {L : Layout} {k : Nat} (d : Distinct L k) {x y : DlHandle} {f g : Name}
    (hx : Below k (.dlsymCalled x f)) (hy : Below k (.dlsymCalled y g)) (h : L.dl x = L.dl y) : x = y := by
  cases x <;> cases y
  · rfl
  · exact (d.next _ hy h.symm).elim
  · exact (d.next _ hx h).elim
  · rw [d.handle _ hx _ hy h]

/-- The values tell the rest. -/
theorem same_note {L : Layout} {k : Nat} (d : Distinct L k) {n m : Note} (k1 : Below k n) (k2 : Below k m) (hs : skel n = skel m) (hf : fields L n = fields L m)
    (n1 : hasNull n = false) (n2 : hasNull m = false) (p1 : ∀ b, n ≠ .point b (some 0#64))
    (p2 : ∀ b, m ≠ .point b (some 0#64)) : n = m := by
  cases n <;> cases m <;> first
    | (simp only [skel, reduceCtorEq] at hs; done)
    | skip
  case one.one a b =>
    cases a <;> cases b <;> first
      | (simp only [skel, Note.one.injEq, reduceCtorEq] at hs; done)
      | skip
    case wrapCalled.wrapCalled t k t' k' =>
      cases t with
      | none => cases n1
      | some t =>
        cases t' with
        | none => cases n2
        | some t' => simp_all [fields, msgFields]
    case dlopenCalled.dlopenCalled t k t' k' =>
      cases t with
      | none => cases n1
      | some t =>
        cases t' with
        | none => cases n2
        | some t' => simp_all [fields, msgFields, BitVec.toNat_inj]
    all_goals simp_all [fields, msgFields]
  case dlsymCalled.dlsymCalled =>
    simp only [fields, List.cons.injEq, Field.addr.injEq, Field.str.injEq, and_true, true_and] at hf
    rw [d.dl k1 k2 hf.1, hf.2]
  case clear.clear =>
    simp only [fields, List.cons.injEq, Field.addr.injEq, Field.str.injEq, and_true, true_and] at hf
    rw [d.var _ k1 _ k2 hf]
  case point.point b v b' v' =>
    simp only [fields, List.cons.injEq, Field.addr.injEq, Field.str.injEq, and_true, true_and] at hf
    rw [d.field _ k1 _ k2 hf.1]
    have h2 := hf.2
    cases v with
    | none =>
      cases v' with
      | none => rfl
      | some v' => exact (p2 b' (by rw [show v' = 0#64 from h2.symm])).elim
    | some v =>
      cases v' with
      | none => exact (p1 b (by rw [show v = 0#64 from h2])).elim
      | some v' => rw [show v = v' from h2]
  case mark.mark k l r k' l' r' =>
    simp only [skel, Note.mark.injEq, and_true] at hs
    subst hs
    cases k <;>
    · simp only [fields, List.cons.injEq, Field.addr.injEq, Field.str.injEq, Field.nat.injEq, and_true, true_and] at hf
      rw [hf.1, Prod.ext hf.2.1 (BitVec.eq_of_toNat_eq hf.2.2)]
  case newLib.newLib u l u' l' =>
    simp_all [fields, skel]
  case markFailed.markFailed => simpa [skel] using hs
  all_goals
    simp only [fields, List.cons.injEq, Field.addr.injEq, Field.str.injEq, Field.nat.injEq, Field.int.injEq,
      Field.hex.injEq, BitVec.toNat_inj, Int.natCast_inj, and_true, true_and] at hf
  all_goals first
    | rfl
    | (rw [hf])
    | (obtain ⟨h1, h2⟩ := hf; rw [h1, h2]; done)
    | (obtain ⟨h1, h2, h3⟩ := hf; rw [h1, h2, h3]; done)
    | (obtain ⟨h1, h2, h3, h4⟩ := hf; rw [h1, h2, h3, h4]; done)

end Gotcha.Spec.Text
