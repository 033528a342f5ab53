import Verif.Spec.Loader
import Verif.Props.Elf
import Verif.Proof.Order
/-
What `lookup_exported_symbol` finds of an ordinary function, against what the loader binds references to.
-/
namespace Gotcha
open Spec Elf Props

/-- Whatever way the lookup takes, it gives the newest definition from index 1 or from the first hashed
index on. -/
theorem exportsAt_newest {v : ObjView} {l : Lib} (h : v.Of l) {f : Name} (ha : Ascii f) :
    ∃ r o, exportsAt l f = addrOf v.syms l.addr r ∧ Newest v.syms o (v.d.versym ≠ 0) f r ∧ 0 < o ∧
      (o = 1 ∨ (v.d.gnuHash ≠ 0 ∧ o = v.off)) := by
  by_cases hg : v.d.gnuHash = 0
  · have he : v.d.elfHash ≠ 0 := h.hash.resolve_left (fun hc => hc hg)
    obtain ⟨r, e, n⟩ := C50_exported h.tables hg he l.addr f
    exact ⟨r, 1, by rw [exportsAt, e], n, by omega, Or.inl rfl⟩
  · obtain ⟨nb, mw, hgt⟩ := h.tables.gnu hg
    obtain ⟨r, e, n1, n2⟩ := C49_exported h.tables hg l.addr f ha
    by_cases hc : (∃ i, Defines v.syms v.off (v.d.versym ≠ 0) f i) ∨ v.d.elfHash = 0
    · exact ⟨r, v.off, by rw [exportsAt, e], n1 hc, hgt.off0, Or.inr ⟨hg, rfl⟩⟩
    · rw [not_or] at hc
      exact ⟨r, 1, by rw [exportsAt, e], n2 (fun i hi => hc.1 ⟨i, hi⟩) hc.2, by omega, Or.inl rfl⟩

theorem nameOf_some {syms : List DynSym} {i : Nat} {x : DynSym} (h : syms[i]? = some x) :
    nameOf syms i = x.name := by
  simp [nameOf, h]

/-- What GOTCHA finds of an ordinary function. -/
theorem plain_exports {v : ObjView} {l : Lib} (h : v.Of l) {f : Name} (ha : Ascii f) (hp : v.Plain f)
    (a : Addr) : exportsAt l f = some a ↔
      ∃ i, v.Named f i ∧ (v.kind i).defined = true ∧ a = v.target l i := by
  obtain ⟨r, o, e, ⟨n1, n2⟩, ho, hoo⟩ := exportsAt_newest h ha
  rw [e]
  cases r with
  | none =>
    have hno := n1.1 rfl
    simp only [addrOf, Option.bind_none, reduceCtorEq, false_iff, not_exists]
    rintro i ⟨hn, hd, -⟩
    obtain ⟨-, -, hx⟩ := hp i hn
    obtain ⟨hx1, hx2, -⟩ := hx hd
    refine hno i ⟨?_, hn.2.1, hn.2.2, hx2⟩
    rcases hoo with rfl | ⟨hg, rfl⟩
    · exact hn.1
    · exact hx1 hg
  | some w =>
    obtain ⟨⟨h1, h2, h3, h4⟩, -⟩ := n2 w rfl
    have hn : v.Named f w.toNat := ⟨by omega, h2, h3⟩
    obtain ⟨hu, hs, hx⟩ := hp _ hn
    obtain ⟨x, hx'⟩ : ∃ x, v.syms[w.toNat]? = some x := ⟨_, List.getElem?_eq_getElem h2⟩
    simp only [addrOf, Option.bind_some, hx']
    constructor
    · intro hsz
      split at hsz
      · cases hsz
      · rename_i hne
        have hd : (v.kind w.toNat).defined = true := hs.2 (by
          intro y hy
          rw [hx'] at hy
          cases hy
          exact hne)
        refine ⟨w.toNat, hn, hd, ?_⟩
        rw [ObjView.target, (hx hd).2.2]
        simp only [hx', Option.map_some, Option.getD_some]
        exact (Option.some.inj hsz).symm
    · rintro ⟨i, hi, hd, rfl⟩
      obtain rfl := hu i hi
      rw [if_neg (hs.1 hd x hx'), ObjView.target, (hx hd).2.2]
      simp only [hx', Option.map_some, Option.getD_some]

/-- Among objects for which `f` is an ordinary function in a version that answers the reference, GOTCHA
finds what the loader binds. -/
theorem bound_firstDef {view : Lib → ObjView} {v : Option Addr} {libs : List Lib} {f : Name}
    {want : Option Name} {a : Addr} (ha : Ascii f)
    (hof : ∀ l ∈ libs, v ≠ some l.lm → (view l).Of l ∧ (view l).Plain f ∧
      ∀ i, (view l).Named f i → (view l).Answers want i)
    (hb : Bound view (scope v libs) f want a) : firstDef v libs f = some a := by
  induction libs with
  | nil =>
    obtain ⟨l1, l, l2, i, e, -⟩ := hb
    simp [scope] at e
  | cons x libs ih =>
    unfold firstDef at ih ⊢
    rw [List.findSome?_cons]
    by_cases hv : v = some x.lm
    · rw [if_pos hv]
      refine ih (fun l hl => hof l (List.mem_cons_of_mem _ hl)) ?_
      rwa [scope, List.filter_cons_of_neg (by simpa using hv)] at hb
    · rw [if_neg hv]
      obtain ⟨ho, hp, hans⟩ := hof x (by simp) hv
      rw [scope, List.filter_cons_of_pos (by simpa using hv)] at hb
      obtain ⟨l1, l, l2, i, e, hm, rfl, hno⟩ := hb
      cases l1 with
      | nil =>
        simp only [List.nil_append, List.cons.injEq] at e
        obtain ⟨rfl, -⟩ := e
        rw [(plain_exports ho ha hp _).2 ⟨i, hm.1, hm.2.1, rfl⟩]
      | cons y l1 =>
        simp only [List.cons_append, List.cons.injEq] at e
        obtain ⟨rfl, e⟩ := e
        cases hx : exportsAt x f with
        | some b =>
          obtain ⟨j, hj, hd, -⟩ := (plain_exports ho ha hp b).1 hx
          exact absurd ⟨hj, hd, hans j hj⟩ (hno x (by simp) j)
        | none =>
          exact ih (fun l hl => hof l (List.mem_cons_of_mem _ hl))
            ⟨l1, l, l2, i, e, hm, rfl, fun l' hl' => hno l' (List.mem_cons_of_mem _ hl')⟩

theorem firstDef_append {v : Option Addr} {libs : List Lib} {f : Name} {a : Addr} (more : List Lib)
    (h : firstDef v libs f = some a) : firstDef v (libs ++ more) f = some a := by
  unfold firstDef at h ⊢
  rw [List.findSome?_append, h]
  rfl

/-- Objects that are never unloaded stay at the front of the link map. -/
theorem libsAfter_front {libs : List Lib} : ∀ (ops : List Op) (more : List Lib),
    (∀ dead, Op.unload dead ∈ ops → ∀ l ∈ libs, dead l.lm = false) →
    ∃ more', libsAfter (libs ++ more) ops = libs ++ more' := by
  intro ops
  induction ops with
  | nil => intro more _; exact ⟨more, rfl⟩
  | cons op ops ih =>
    intro more h
    have key : ∃ more', loadStep (libs ++ more) op = libs ++ more' := by
      cases op with
      | unload dead =>
        refine ⟨more.filter (fun l => !dead l.lm), ?_⟩
        have := h dead (by simp)
        simp only [loadStep, List.filter_append]
        congr 1
        rw [List.filter_eq_self]
        intro l hl
        simp [this l hl]
      | dlopen ld => exact ⟨more ++ ld.libs, by simp [loadStep]⟩
      | load ld => exact ⟨more ++ ld.libs, by simp [loadStep]⟩
      | _ => exact ⟨more, rfl⟩
    obtain ⟨more', e⟩ := key
    obtain ⟨m2, e2⟩ := ih more' (fun d hd => h d (by simp [hd]))
    exact ⟨m2, by rw [← e2, ← e]; rfl⟩

/-- A function that is registered is looked for on some link map, the first time after a prefix of the
history. -/
theorem tries_head (env : Env) (libs : List Lib) {f : Name} (hf : f ∉ ownNames) :
    ∀ (rest done : List Op), clientFrames done f = [] → clientFrames (done ++ rest) f ≠ [] →
    ∃ pre post more, done ++ rest = pre ++ post ∧ tries env libs f done rest = libsAfter libs pre :: more := by
  intro rest
  induction rest with
  | nil => intro done h1 h2; rw [List.append_nil] at h2; exact absurd h1 h2
  | cons op rest ih =>
    intro done h1 h2
    by_cases hc : clientFrames (done ++ [op]) f = []
    · have hno : isTry env f done op = false := by
        cases op <;> simp only [isTry, registered_client _ _ hf, h1, hc, List.isEmpty_nil, Bool.not_true,
          Bool.and_false]
      obtain ⟨pre, post, more, e, ht⟩ := ih (done ++ [op]) hc (by simpa using h2)
      refine ⟨pre, post, more, by simpa using e, ?_⟩
      rw [tries, hno, ht]
      rfl
    · have hyes : isTry env f done op = true := by
        have hc' : clientFrames (done ++ [op]) f = clientFrames done f ++ clientFrames [op] f := by
          simp [clientFrames]
        cases op with
        | dlopen ld =>
          refine absurd ?_ hc
          rw [hc', h1]
          rfl
        | _ =>
          simp only [isTry, registered_client _ _ hf, h1, List.isEmpty_nil, Bool.true_and,
            Bool.not_eq_true', List.isEmpty_eq_false_iff]
          exact hc
      refine ⟨done ++ [op], rest, tries env libs f (done ++ [op]) rest, by simp, ?_⟩
      rw [tries, hyes]
      rfl

/-- The real function is the first definition among the objects present from the start, if there is one
and those objects stay. -/
theorem real_at_start {env : Env} {libs : List Lib} {ops : List Op} {f : Name} {a : Addr}
    (hf : f ∉ ownNames) (hne : clientFrames ops f ≠ [])
    (stay : ∀ dead, Op.unload dead ∈ ops → ∀ l ∈ libs, dead l.lm = false)
    (hd : firstDef (vdsoAfter env libs ops) libs f = some a) :
    realAfter env libs ops f = some a := by
  obtain ⟨pre, post, more, e, ht⟩ := tries_head env libs hf ops [] rfl (by simpa using hne)
  rw [List.nil_append] at e
  obtain ⟨m, hm⟩ := libsAfter_front (libs := libs) pre [] (fun dead h => stay dead (by rw [e]; simp [h]))
  rw [List.append_nil] at hm
  rw [realAfter, ht, List.findSome?_cons, hm, firstDef_append m hd]

end Gotcha
