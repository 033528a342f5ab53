import Verif.Demo.Image
import Verif.Spec.Order
/-
A concrete process and history meeting the assumptions of Spec/History: an application and a libc,
two tools wrapping the same function with different priorities, a function that only a plugin loaded
later provides, a tool wrapping main.
-/
namespace Gotcha.Demo
open Spec

/-- An object at page-aligned address `addr` whose GOT is on its first page. -/
def obj (lm : Addr) (name : String) (addr : Addr) (exps : List (Name × Addr))
    (rels : List (Addr × Name)) : Lib :=
  { lm, name := some (nm name), addr, ld := addr, img := img exps rels addr,
    phdrs := [⟨Got.PT_LOAD, 0, 0x100000⟩] }

theorem rlOf_obj {lm name addr exps rels} (h : exps.length + rels.length < 2 ^ 20) :
    rlOf (obj lm name addr exps rels) = rels := by
  simp only [rlOf, obj, relocs_img h]

theorem exportsAt_obj {lm name addr exps rels} (h : exps.length + rels.length < 2 ^ 20) (f : Name) :
    exportsAt (obj lm name addr exps rels) f =
      (exps.reverse.find? (fun e => decide (f = e.1))).map (fun e => e.2 + addr) := by
  simp only [exportsAt, obj, exported_img h]

def app : Lib := obj 0x1000 "/bin/app" 0x10000000
  [(nm "main", 0x4000)]
  [(0x18, nm "foo"), (0x20, nm "bar"), (0x28, nm "dlopen"), (0x30, nm "__libc_start_main")]

def libc : Lib := obj 0x2000 "/lib/libc.so.6" 0x20000000
  [(nm "foo", 0x4000), (nm "dlopen", 0x5000), (nm "dlsym", 0x6000),
    (nm "__libc_start_main", 0x7000)]
  []

def plug : Lib := obj 0x3000 "/lib/plugin.so" 0x30000000
  [(nm "bar", 0x4000)] [(0x18, nm "foo")]

def env : Env where
  page := 4096
  vdsoOf _ := none
  mprotect _ := true
  dlopenW := 0x501
  dlsymW := 0x502
  libcMainW := 0x503
  mainW := 0x504
  hDlopen := 1
  hDlsym := 2
  hLibcMain := 3
  hMain := 4

/-- Which handle variable a wrapper reads. -/
def P (a : Addr) : Option HAddr :=
  if 0x501 ≤ a.toNat ∧ a.toNat < 0x600 then some (a.toNat - 0x500) else none

def U (l : Lib) : Prop := l = app ∨ l = libc ∨ l = plug

/-- All GOT pages start read-only. -/
def proc : Process where
  env := env
  U := U
  P := P
  libs := [app, libc]
  mem := fun _ => 0
  wr := fun _ => false

/-- What the loader does when the plugin is loaded. -/
def loadPlug : Load := { libs := [plug], mem := fun _ => none, wr := fun _ => none }

def A : Name := nm "toolA"
def B : Name := nm "toolB"
def M : Name := nm "toolM"

/-- The history: tool A, of priority 10 set beforehand, wraps foo after tool B has wrapped foo and
bar; bar arrives with the plugin; tool M wraps main. -/
def ops : List Op :=
  [ .setPriority A 10,
    .wrap [⟨nm "foo", 0x50a, 10⟩, ⟨nm "bar", 0x50b, 11⟩] (some B),
    .wrap [⟨nm "foo", 0x50c, 12⟩] (some A),
    .dlopen loadPlug,
    .wrap [⟨nm "main", 0x50d, 13⟩] (some M),
    .getPriority A ]

theorem rl_app : rlOf app = [(0x18, nm "foo"), (0x20, nm "bar"), (0x28, nm "dlopen"),
    (0x30, nm "__libc_start_main")] := rlOf_obj (by decide)
theorem rl_libc : rlOf libc = [] := rlOf_obj (by decide)
theorem rl_plug : rlOf plug = [(0x18, nm "foo")] := rlOf_obj (by decide)

theorem marks_app : marksOf env app = [(0x10000000, 0x1000)] := by decide +kernel
theorem marks_plug : marksOf env plug = [(0x30000000, 0x1000)] := by decide +kernel

theorem world : World env U where
  page48 := by decide
  page64 := by decide
  ident := by
    rintro l l' (rfl | rfl | rfl) (rfl | rfl | rfl) h <;> first
      | rfl
      | exact absurd h (by decide +kernel)
  named := by rintro l (rfl | rfl | rfl) <;> rfl
  exp := by
    rintro l (rfl | rfl | rfl) n
    all_goals exact ⟨_, exported_img (by decide) _ _⟩
  rel := by
    rintro l (rfl | rfl | rfl)
    all_goals exact ⟨_, relocs_img (by decide)⟩

theorem cover_app : ∀ s ∈ rlOf app, markedBy env app (app.addr + s.1) := by
  intro s hs
  rw [rl_app] at hs
  refine ⟨(0x10000000, 0x1000), by rw [marks_app]; simp, ?_⟩
  simp only [List.mem_cons, List.not_mem_nil, or_false] at hs
  rcases hs with rfl | rfl | rfl | rfl <;> decide

theorem cover_plug : ∀ s ∈ rlOf plug, markedBy env plug (plug.addr + s.1) := by
  intro s hs
  rw [rl_plug] at hs
  refine ⟨(0x30000000, 0x1000), by rw [marks_plug]; simp, ?_⟩
  simp only [List.mem_cons, List.not_mem_nil, or_false] at hs
  rcases hs with rfl
  decide

theorem names_ne : app.name ≠ libc.name ∧ app.name ≠ plug.name ∧ libc.name ≠ plug.name := by
  decide +kernel

theorem placed {L : List Lib} (h : ∀ l ∈ L, U l) : Placed L := by
  intro l hl o ho hn _
  rcases h l hl with rfl | rfl | rfl <;> rcases h o ho with rfl | rfl | rfl <;> first
    | rfl
    | exact absurd hn names_ne.1
    | exact absurd hn names_ne.2.1
    | exact absurd hn names_ne.2.2
    | exact absurd hn.symm names_ne.1
    | exact absurd hn.symm names_ne.2.1
    | exact absurd hn.symm names_ne.2.2

theorem cons {L : List Lib} (h : ∀ l ∈ L, U l) : SlotCons L := by
  intro l hl l' hl' p hp q hq e
  have key : ∀ l, U l → l = app ∨ l = plug ∨ rlOf l = [] := by
    rintro l (rfl | rfl | rfl)
    · exact Or.inl rfl
    · exact Or.inr (Or.inr rl_libc)
    · exact Or.inr (Or.inl rfl)
  rcases key l (h l hl) with rfl | rfl | h1 <;> rcases key l' (h l' hl') with rfl | rfl | h2 <;>
    first
    | (rw [h1] at hp; cases hp)
    | (rw [h2] at hq; cases hq)
    | (simp only [rl_app, rl_plug, List.mem_cons, List.not_mem_nil, or_false] at hp hq
       rcases hp with rfl | rfl | rfl | rfl <;> rcases hq with rfl | rfl | rfl | rfl <;> first
        | rfl
        | exact absurd e (by decide))
    | (simp only [rl_app, rl_plug, List.mem_cons, List.not_mem_nil, or_false] at hp hq
       rcases hp with rfl | rfl | rfl | rfl <;> rcases hq with rfl <;> first
        | rfl
        | exact absurd e (by decide))
    | (simp only [rl_app, rl_plug, List.mem_cons, List.not_mem_nil, or_false] at hp hq
       rcases hp with rfl <;> rcases hq with rfl | rfl | rfl | rfl <;> first
        | rfl
        | exact absurd e (by decide))
    | (simp only [rl_app, rl_plug, List.mem_cons, List.not_mem_nil, or_false] at hp hq
       rcases hp with rfl; rcases hq with rfl; rfl)

theorem proc_ok : proc.Ok where
  world := world
  objs := by
    intro l hl
    simp only [proc, List.mem_cons, List.not_mem_nil, or_false] at hl
    rcases hl with rfl | rfl
    · exact Or.inl rfl
    · exact Or.inr (Or.inl rfl)
  nd := by decide
  placed := placed (by
    intro l hl
    simp only [proc, List.mem_cons, List.not_mem_nil, or_false] at hl
    rcases hl with rfl | rfl
    · exact Or.inl rfl
    · exact Or.inr (Or.inl rfl))
  cover := by
    intro l hl s hs
    simp only [proc, List.mem_cons, List.not_mem_nil, or_false] at hl
    rcases hl with rfl | rfl
    · exact Or.inr (cover_app s hs)
    · rw [rl_libc] at hs; cases hs
  ne := by simp [proc]

theorem libs_U : ∀ l ∈ [app, libc] ++ [plug], U l := by
  intro l hl
  simp only [List.cons_append, List.nil_append, List.mem_cons, List.not_mem_nil, or_false] at hl
  exact hl

theorem loadPlug_ok (strict : Prop) : LoadsOk proc strict proc.seen [app, libc] loadPlug where
  objs := by
    intro l hl
    simp only [loadPlug, List.mem_singleton] at hl
    subst hl
    exact Or.inr (Or.inr rfl)
  nd := by
    show [app.lm, libc.lm, plug.lm].Nodup
    decide
  again := by
    intro l hl
    simp only [loadPlug, List.mem_singleton] at hl
    subst hl
    intro hl
    simp only [Process.seen, proc, List.mem_cons, List.not_mem_nil, or_false] at hl
    rcases hl with hl | hl <;> exact absurd (congrArg Lib.lm hl) (by decide)
  placed := placed libs_U
  old := by intro l _ s _; simp [loadPlug]
  cover := by
    intro l hl s hs
    simp only [loadPlug, List.mem_singleton] at hl
    subst hl
    exact Or.inr (cover_plug s hs)
  cons := fun _ => cons libs_U
  keep := by intro _ l _ s _; rfl

/-- A step-by-step form of `MainAlone`. -/
def mainStep : List Op → List Op → Prop
  | _, [] => True
  | pre, op :: ops =>
    (match op with
      | .wrap tbl tool => hasMain tbl → (∀ o ∈ pre, ¬ hasMain (tableOf o)) →
        (∃ u, tbl = [u]) ∧ prioOr (toolName tool) pre ≤ prioOr (nm "gotcha") pre
      | _ => True) ∧ mainStep (pre ++ [op]) ops

theorem mainAlone_of {ops : List Op} (h : mainStep [] ops) : MainAlone ops := by
  have key : ∀ ops pre0, mainStep pre0 ops → ∀ pre tbl tool post,
      ops = pre ++ .wrap tbl tool :: post → hasMain tbl →
      (∀ o ∈ pre0 ++ pre, ¬ hasMain (tableOf o)) →
      (∃ u, tbl = [u]) ∧ prioOr (toolName tool) (pre0 ++ pre) ≤ prioOr (nm "gotcha") (pre0 ++ pre) := by
    intro ops
    induction ops with
    | nil => intro pre0 _ pre tbl tool post e; simp at e
    | cons op ops ih =>
      intro pre0 h pre tbl tool post e hm hn
      cases pre with
      | nil =>
        simp only [List.nil_append, List.cons.injEq] at e
        obtain ⟨rfl, rfl⟩ := e
        simp only [List.append_nil] at hn ⊢
        exact h.1 hm hn
      | cons o pre =>
        simp only [List.cons_append, List.cons.injEq] at e
        obtain ⟨rfl, rfl⟩ := e
        have := ih (pre0 ++ [op]) h.2 pre tbl tool post rfl hm (by simpa using hn)
        simpa using this
  intro pre tbl tool post e hm hn
  exact key ops [] h pre tbl tool post e hm (by simpa using hn)

/-- A step-by-step form of `Settled`. -/
def settledStep : List Op → List Op → Prop
  | _, [] => True
  | pre, op :: ops =>
    (match op with
      | .setPriority t v =>
        (t ≠ nm "gotcha" ∧ ∀ tbl tool, Op.wrap tbl tool ∈ pre → toolName tool ≠ t) ∨
          v = prioOr t pre
      | _ => True) ∧ settledStep (pre ++ [op]) ops

theorem settled_of {ops : List Op} (h : settledStep [] ops) : Settled ops := by
  have key : ∀ ops pre0, settledStep pre0 ops → ∀ pre t v post,
      ops = pre ++ .setPriority t v :: post →
      (t ≠ nm "gotcha" ∧ ∀ tbl tool, Op.wrap tbl tool ∈ pre0 ++ pre → toolName tool ≠ t) ∨
          v = prioOr t (pre0 ++ pre) := by
    intro ops
    induction ops with
    | nil => intro pre0 _ pre t v post e; simp at e
    | cons op ops ih =>
      intro pre0 h pre t v post e
      cases pre with
      | nil =>
        simp only [List.nil_append, List.cons.injEq] at e
        obtain ⟨rfl, rfl⟩ := e
        simp only [List.append_nil]
        exact h.1
      | cons o pre =>
        simp only [List.cons_append, List.cons.injEq] at e
        obtain ⟨rfl, rfl⟩ := e
        have := ih (pre0 ++ [op]) h.2 pre t v post rfl
        simpa using this
  intro pre t v post e
  exact key ops [] h pre t v post e

theorem envOk : EnvOk env P := ⟨by decide, by decide, by decide, by decide, by decide⟩

theorem honest : Honest env P ops where
  nodup := by decide +kernel
  prog := by
    intro u hu
    simp only [ops, List.flatMap_cons, List.flatMap_nil, tableOf, List.nil_append, List.append_nil,
      List.cons_append, List.mem_cons, List.not_mem_nil, or_false] at hu
    rcases hu with rfl | rfl | rfl | rfl <;> decide
  own := envOk

theorem notMain {n : String} (h : nm n ≠ nm "main") {w hd} :
    ¬ hasMain [⟨nm n, w, hd⟩] := by
  rintro ⟨u, hu, e⟩
  rw [List.mem_singleton] at hu
  subst hu
  exact h e

theorem dlopen_def : firstDef (proc.env.vdsoOf [app, libc]) [app, libc] (nm "dlopen") ≠ none := by
  decide +kernel

theorem history (strict : Prop) : History proc strict ops where
  honest := honest
  loader := by
    refine ⟨fun _ => dlopen_def, ?_⟩
    refine ⟨fun h => (by cases h), ?_⟩
    refine ⟨fun h => (by cases h), ?_⟩
    refine ⟨loadPlug_ok strict, ?_⟩
    refine ⟨fun h => (by cases h), ?_⟩
    exact ⟨fun h => (by cases h), trivial⟩
  cons := fun _ => cons proc_ok.objs
  filter := by
    intro _ f hf
    simp [ops] at hf
  main := by
    intro _
    refine mainAlone_of ⟨trivial, ?_, ?_, trivial, ?_, trivial, trivial⟩
    · rintro ⟨u, hu, e⟩
      simp only [List.mem_cons, List.not_mem_nil, or_false] at hu
      rcases hu with rfl | rfl
      · exact absurd e (show nm "foo" ≠ nm "main" by decide +kernel)
      · exact absurd e (show nm "bar" ≠ nm "main" by decide +kernel)
    · intro h
      exact absurd h (notMain (by decide +kernel))
    · intro _ _
      exact ⟨⟨_, rfl⟩, by decide +kernel⟩
  short := fun _ => by decide

theorem settled : Settled ops := by
  refine settled_of ⟨Or.inl ⟨by decide +kernel, ?_⟩, trivial, trivial, trivial, trivial, trivial,
    trivial⟩
  intro tbl tool h
  cases h

/-- A second history: two tools of the same (default) priority wrap the same function. -/
def ops2 : List Op :=
  [ .wrap [⟨nm "foo", 0x50a, 10⟩] (some B),
    .wrap [⟨nm "foo", 0x50c, 12⟩] (some A) ]

theorem honest2 : Honest env P ops2 where
  nodup := by decide +kernel
  prog := by
    intro u hu
    simp only [ops2, List.flatMap_cons, List.flatMap_nil, tableOf, List.nil_append, List.append_nil,
      List.cons_append, List.mem_cons, List.not_mem_nil, or_false] at hu
    rcases hu with rfl | rfl <;> decide
  own := envOk

theorem history2 (strict : Prop) : History proc strict ops2 where
  honest := honest2
  loader := ⟨fun _ => dlopen_def, fun h => (by cases h), trivial⟩
  cons := fun _ => cons proc_ok.objs
  filter := by
    intro _ f hf
    simp [ops2] at hf
  main := by
    intro _
    refine mainAlone_of ⟨?_, ?_, trivial⟩
    · intro h
      exact absurd h (notMain (by decide +kernel))
    · intro h
      exact absurd h (notMain (by decide +kernel))
  short := fun _ => by decide

/-- A third history: the filter admits only objects with "plugin" in their name. -/
def ops3 : List Op :=
  [ .setFilter (.byName (some (nm "plugin"))),
    .wrap [⟨nm "foo", 0x50a, 10⟩] (some B),
    .dlopen loadPlug ]

theorem history3 : History proc False ops3 where
  honest := by
    refine ⟨by decide +kernel, ?_, envOk⟩
    intro u hu
    simp only [ops3, List.flatMap_cons, List.flatMap_nil, tableOf, List.nil_append, List.append_nil,
      List.mem_cons, List.not_mem_nil, or_false] at hu
    subst hu
    decide
  loader := by
    refine ⟨fun _ => dlopen_def, ?_⟩
    exact ⟨loadPlug_ok False, trivial⟩
  cons := False.elim
  filter := False.elim
  main := False.elim
  short := False.elim

theorem settled2 : Settled ops2 := settled_of ⟨trivial, trivial, trivial⟩

end Gotcha.Demo
