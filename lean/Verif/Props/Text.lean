import Verif.Proof.TextNote
import Verif.Props.Printf
import Verif.Props.Log
/-
C108: the text of the full log.  Every message is printed as it reads in the source; from what is printed the messages
can be recovered, and with C105 what GOTCHA has done.
-/
namespace Gotcha
open Spec
open Spec.Text (Field line fields head kind hasNull Fits Plain plain Distinct)

/-- **C108** Every message without NULL strings is printed as its line (up to 4096 characters; for longer lines see
C46). -/
theorem C108_prints {junk : Name → List UInt8} (hj : ∀ f, (junk f).length = 64) {buf : List UInt8}
    (hb : buf.length = 4096) (L : Layout) (tid pid : BitVec 32) {n : Note} (hn : hasNull n = false) (hf : Fits n)
    (hl : (line L tid pid n).length ≤ 4096) : n.print junk buf L tid pid = .ok (line L tid pid n) := by
  have e := Spec.Text.linePieces_render L tid pid hf
  have h := Printf.C45_printf hj hb (Spec.Text.linePieces L tid pid n) (Spec.Text.linePieces_ok L tid pid n) []
    (by rw [e]; exact hl)
  rw [e, Spec.Text.linePieces_format, Spec.Text.linePieces_args L tid pid hn, List.append_nil] at h
  unfold Note.print
  rw [h]

/-- **C108** A whole log at some debug level: the lines of the messages of that level and below, in order. -/
theorem C108_prints_log {junk : Name → List UInt8} (hj : ∀ f, (junk f).length = 64) {buf : List UInt8}
    (hb : buf.length = 4096) (L : Layout) (tid pid : BitVec 32) (lvl : Nat) (lg : List Note)
    (h : ∀ n ∈ lg, n.level ≤ lvl → hasNull n = false ∧ Fits n ∧ (line L tid pid n).length ≤ 4096) :
    printLog junk buf L tid pid lvl lg =
      .ok ((lg.filter fun n => n.level ≤ lvl).flatMap (line L tid pid)) := by
  induction lg with
  | nil => rfl
  | cons n lg ih =>
    have ih' := ih fun m hm => h m (List.mem_cons_of_mem _ hm)
    unfold printLog
    by_cases hl : n.level ≤ lvl
    · obtain ⟨h1, h2, h3⟩ := h n List.mem_cons_self hl
      rw [if_pos hl, C108_prints hj hb L tid pid h1 h2 h3, ih', List.filter_cons_of_pos (by simpa using hl)]
      rfl
    · rw [if_neg hl, ih', List.filter_cons_of_neg (by simpa using hl)]

/-- What a message must be like to be recovered from its line: no NULL strings, no spaces or line breaks in names, no
wrappee at address 0 (which is printed like NULL); the objects of which it prints the address have numbers below `k`. -/
structure Readable (L : Layout) (k : Nat) (n : Note) : Prop where
  below : Spec.Text.Below k n
  null : hasNull n = false
  plain : Plain L n
  wrappee : ∀ b, n ≠ .point b (some 0#64)

namespace Spec.Text
open Spec.Printf (integer numeral)

theorem level_le (n : Note) : n.level ≤ 3 := by
  cases n <;> first | exact Nat.le_refl 3 | exact (by decide : 2 ≤ 3) | exact (by decide : 1 ≤ 3)

theorem place_file (n : Note) : n.place.1 = nm "gotcha.c" ∨ n.place.1 = nm "gotcha_dl.c" ∨ n.place.1 = nm "tool.c" := by
  cases n with
  | one m => cases m <;> simp [Note.place, Msg.place]
  | newLib u l => cases u <;> simp [Note.place]
  | mark k m r => cases k <;> simp [Note.place]
  | markFailed k => cases k <;> simp [Note.place]
  | _ => simp [Note.place]

theorem head_clear (tid pid : BitVec 32) (n : Note) : ∀ f ∈ head tid pid n, f.Clear := by
  have h : ∀ s ∈ [nm "gotcha.c", nm "gotcha_dl.c", nm "tool.c"], ∀ c ∈ s, c ≠ 58 := by decide +kernel
  have hp : ∀ c ∈ n.place.1, c ≠ 58 := h _ (by
    rcases place_file n with h | h | h <;> simp [h])
  simp only [head, List.forall_mem_cons]
  exact ⟨trivial, trivial, trivial, trivial, trivial, hp, trivial, trivial, trivial, fun _ h => by cases h⟩

theorem fields_clear {L : Layout} {n : Note} (h : Plain L n) : ∀ f ∈ fields L n, f.Clear := by
  intro f hf
  cases f with
  | str s => exact h s hf
  | place s =>
    exfalso
    revert hf
    cases n with
    | one m => cases m <;> simp [fields, msgFields]
    | mark k m r => cases k <;> simp [fields]
    | markFailed k => cases k <;> simp [fields]
    | _ => simp [fields]
  | _ => trivial

theorem head_shape (tid pid tid' pid' : BitVec 32) (n m : Note) :
    (head tid pid n).map sh = (head tid' pid' m).map sh := by
  simp only [head, List.map_cons, List.map_nil, sh]

theorem head_apart (tid pid : BitVec 32) (n : Note) : apart ((head tid pid n).map sh) = true := by
  simp only [head, List.map_cons, List.map_nil, sh]
  decide +kernel

/-- Ordinary messages and errors, after "ERROR ". -/
theorem body_inj {L : Layout} {k : Nat} (d : Distinct L k) {tid pid : BitVec 32} {n m : Note} (hn : Readable L k n)
    (hm : Readable L k m) {r r' : Name}
    (h : «show» (head tid pid n) ++ («show» (fields L n) ++ r) = «show» (head tid pid m) ++ («show» (fields L m) ++ r')) :
    n = m ∧ r = r' := by
  obtain ⟨h1, h2⟩ := read (head_shape tid pid tid pid n m) (head_apart tid pid n) (head_clear tid pid n)
    (head_clear tid pid m) h
  simp only [head, List.cons.injEq, Field.place.injEq, Field.nat.injEq, true_and, and_true] at h1
  have hs := skel_of_place (Prod.ext h1.1 h1.2)
  obtain ⟨h3, h4⟩ := read (by rw [shape_skel L n, hs, ← shape_skel L m]) (shape_apart L n) (fields_clear hn.plain)
    (fields_clear hm.plain) h2
  exact ⟨same_note d hn.below hm.below hs h3 hn.null hm.null hn.wrappee hm.wrappee, h4⟩

/-- The first character: a tabulator, 'E' or '['. -/
def first (n : Note) : UInt8 :=
  match kind n with
  | none => 9
  | some true => 69
  | some false => 91

theorem line_first (L : Layout) (tid pid : BitVec 32) (n : Note) : ∃ t, line L tid pid n = first n :: t := by
  have e1 : nm "[" = [91] := by decide +kernel
  have e2 : nm "ERROR " = [69, 82, 82, 79, 82, 32] := by decide +kernel
  have e3 : nm "\t" = [9] := by decide +kernel
  have h1 : ∃ t, «show» (head tid pid n) = 91 :: t := by
    refine ⟨«show» (head tid pid n).tail, ?_⟩
    rw [show «show» (head tid pid n) = nm "[" ++ «show» (head tid pid n).tail from rfl, e1]
    rfl
  obtain ⟨t, ht⟩ := h1
  cases hk : kind n with
  | none =>
    cases n with
    | willMap i f w =>
      refine ⟨«show» (fields L (.willMap i f w)).tail, ?_⟩
      rw [show line L tid pid (.willMap i f w) = nm "\t" ++ «show» (fields L (.willMap i f w)).tail from rfl, e3]
      rfl
    | _ => cases hk
  | some b =>
    cases b with
    | true => exact ⟨_, by unfold line first; rw [hk]; dsimp only; rw [e2]; rfl⟩
    | false => exact ⟨_, by unfold line first; rw [hk]; dsimp only; rw [ht]; rfl⟩

/-- What follows a line and the line itself can be told apart, and the line tells the message. -/
theorem line_inj {L : Layout} {k : Nat} (d : Distinct L k) {tid pid : BitVec 32} {n m : Note} (hn : Readable L k n)
    (hm : Readable L k m) {r r' : Name} (h : line L tid pid n ++ r = line L tid pid m ++ r') : n = m ∧ r = r' := by
  have hk : kind n = kind m := by
    obtain ⟨t, ht⟩ := line_first L tid pid n
    obtain ⟨t', ht'⟩ := line_first L tid pid m
    rw [ht, ht'] at h
    have hc : first n = first m := (List.cons.inj h).1
    unfold first at hc
    cases hn' : kind n with
    | none => cases hm' : kind m with
      | none => rfl
      | some b => cases b <;> (rw [hn', hm'] at hc; revert hc; decide)
    | some a => cases hm' : kind m with
      | none => cases a <;> (rw [hn', hm'] at hc; revert hc; decide)
      | some b => cases a <;> cases b <;> first | rfl | (rw [hn', hm'] at hc; revert hc; decide)
  unfold line at h
  rw [hk] at h
  cases hm' : kind m with
  | none =>
    rw [hm'] at h hk
    cases n with
    | willMap i f w =>
      cases m with
      | willMap i' f' w' =>
        have hs : skel (.willMap i f w) = skel (.willMap i' f' w') := rfl
        obtain ⟨h3, h4⟩ := read (by rw [shape_skel L (.willMap i f w), hs, ← shape_skel L (.willMap i' f' w')])
          (shape_apart L _) (fields_clear hn.plain) (fields_clear hm.plain) h
        exact ⟨same_note d hn.below hm.below hs h3 hn.null hm.null hn.wrappee hm.wrappee, h4⟩
      | _ => cases hm'
    | _ => cases hk
  | some b =>
    rw [hm'] at h
    cases b with
    | true =>
      dsimp only at h
      rw [List.append_assoc, List.append_assoc, List.append_assoc, List.append_assoc] at h
      exact body_inj d hn hm (List.append_cancel_left h)
    | false =>
      dsimp only at h
      rw [List.append_assoc, List.append_assoc] at h
      exact body_inj d hn hm h

theorem lines_inj {L : Layout} {k : Nat} (d : Distinct L k) {tid pid : BitVec 32} : ∀ {lg lg' : List Note},
    (∀ n ∈ lg, Readable L k n) → (∀ n ∈ lg', Readable L k n) →
    lg.flatMap (line L tid pid) = lg'.flatMap (line L tid pid) → lg = lg'
  | [], [], _, _, _ => rfl
  | [], m :: ms, _, _, h => by
    obtain ⟨t, ht⟩ := line_first L tid pid m
    rw [List.flatMap_cons, ht] at h
    cases h
  | n :: ns, [], _, _, h => by
    obtain ⟨t, ht⟩ := line_first L tid pid n
    rw [List.flatMap_cons, ht] at h
    cases h
  | n :: ns, m :: ms, h1, h2, h => by
    rw [List.flatMap_cons, List.flatMap_cons] at h
    obtain ⟨rfl, h'⟩ := line_inj d (h1 n List.mem_cons_self) (h2 m List.mem_cons_self) h
    rw [lines_inj d (fun x hx => h1 x (List.mem_cons_of_mem _ hx)) (fun x hx => h2 x (List.mem_cons_of_mem _ hx)) h']

/-- The texts have no line break but one at the end. -/
def oneLine : List Sh → Bool
  | [] => false
  | [.text t] => t.getLast? == some 10 && !t.dropLast.contains 10
  | .text t :: l => !t.contains 10 && oneLine l
  | .place :: _ => false
  | _ :: l => oneLine l

theorem show_oneLine : ∀ {fs : List Field}, (∀ f ∈ fs, f.Clear) → oneLine (fs.map sh) = true →
    ∃ t, «show» fs = t ++ [10] ∧ (10 : UInt8) ∉ t
  | [], _, h => by cases h
  | [.text t], _, h => by
    simp only [List.map_cons, List.map_nil, sh, oneLine, Bool.and_eq_true, beq_iff_eq, Bool.not_eq_true',
      List.contains_eq_mem, decide_eq_false_iff_not] at h
    refine ⟨t.dropLast, ?_, h.2⟩
    rw [show «show» [Field.text t] = t from List.append_nil t]
    exact (List.dropLast_append_getLast? 10 h.1).symm
  | [.place _], _, h => by cases h
  | [.str _], _, h => by cases h
  | [.int _], _, h => by cases h
  | [.nat _], _, h => by cases h
  | [.hex _], _, h => by cases h
  | [.addr _], _, h => by cases h
  | f :: g :: fs, hc, h => by
    have hf : (10 : UInt8) ∉ f.show ∧ oneLine ((g :: fs).map sh) = true := by
      have hsep : ∀ {k : Field}, k.Clear → (sh k).sep 10 = true → (10 : UInt8) ∉ k.show := by
        intro k hk h1 h2
        rw [sep_free hk 10 h2] at h1
        cases h1
      have hcf := hc f List.mem_cons_self
      cases f with
      | text t =>
        simp only [List.map_cons, sh, oneLine, Bool.and_eq_true, Bool.not_eq_true', List.contains_eq_mem,
          decide_eq_false_iff_not] at h
        exact ⟨h.1, h.2⟩
      | place s => cases h
      | str s => exact ⟨hsep hcf (by simp only [sh]; decide), h⟩
      | int s => exact ⟨hsep hcf (by simp only [sh]; decide), h⟩
      | nat s => exact ⟨hsep hcf (by simp only [sh]; decide), h⟩
      | hex s => exact ⟨hsep hcf (by simp only [sh]; decide), h⟩
      | addr s => exact ⟨hsep hcf (by simp only [sh]; decide), h⟩
    obtain ⟨t, h1, h2⟩ := show_oneLine (fs := g :: fs) (fun x hx => hc x (List.mem_cons_of_mem _ hx)) hf.2
    refine ⟨f.show ++ t, ?_, ?_⟩
    · rw [show «show» (f :: g :: fs) = f.show ++ «show» (g :: fs) from rfl, h1, List.append_assoc]
    · rw [List.mem_append]
      rintro (h3 | h3)
      · exact hf.1 h3
      · exact h2 h3

theorem fields_oneLine (L : Layout) {n : Note} (h : n ≠ .wrapMain) : oneLine ((fields L n).map sh) = true := by
  cases n with
  | one m => cases m <;> (simp only [fields, msgFields, List.map_cons, List.map_nil, sh]; decide +kernel)
  | mark k m r => cases k <;> (simp only [fields, List.map_cons, List.map_nil, sh]; decide +kernel)
  | markFailed k => cases k <;> (simp only [fields, List.map_cons, List.map_nil, sh]; decide +kernel)
  | wrapMain => exact (h rfl).elim
  | _ => simp only [fields, List.map_cons, List.map_nil, sh]; decide +kernel

theorem head_no_break (tid pid : BitVec 32) (n : Note) : (10 : UInt8) ∉ «show» (head tid pid n) := by
  have hint : ∀ z, (10 : UInt8) ∉ integer z := by
    intro z hz
    have := sep_free (f := .int z) trivial 10 hz
    revert this
    simp only [sh]
    decide
  have hnat : ∀ k, (10 : UInt8) ∉ numeral false 10 k := by
    intro k hk
    have := sep_free (f := .nat k) trivial 10 hk
    revert this
    simp only [sh]
    decide
  have hp : (10 : UInt8) ∉ n.place.1 := by
    have h : ∀ s ∈ [nm "gotcha.c", nm "gotcha_dl.c", nm "tool.c"], (10 : UInt8) ∉ s := by decide +kernel
    exact h _ (by rcases place_file n with h | h | h <;> simp [h])
  have ht : ∀ s ∈ [nm "[", nm "/", nm "][", nm ":", nm "] - "], (10 : UInt8) ∉ s := by decide +kernel
  simp only [List.forall_mem_cons] at ht
  simp only [head, «show», List.flatMap_cons, List.flatMap_nil, Field.show, List.mem_append, not_or]
  exact ⟨ht.1, hint _, ht.2.1, hint _, ht.2.2.1, hp, ht.2.2.2.1, hnat _, ht.2.2.2.2.1, List.not_mem_nil⟩

end Spec.Text

/-- **C108** The output is unambiguous: two logs that print the same text are the same, message by message and value by
value (for readable messages, and with different objects at different addresses). -/
theorem C108_unambiguous {L : Layout} {k : Nat} (d : Distinct L k) {tid pid : BitVec 32} {lg lg' : List Note}
    (h1 : ∀ n ∈ lg, Readable L k n) (h2 : ∀ n ∈ lg', Readable L k n)
    (h : lg.flatMap (line L tid pid) = lg'.flatMap (line L tid pid)) : lg = lg' :=
  Spec.Text.lines_inj d h1 h2 h

/-- **C108** What is printed at level 3 tells what was done: if an event prints the same in two processes that the reader
cannot tell apart before it, then the memory, the protections, the pointers and the records are the same after it. -/
theorem C108_output_tells {junk : Name → List UInt8} (hj : ∀ f, (junk f).length = 64) {buf : List UInt8}
    (hb : buf.length = 4096) {L : Layout} {k : Nat} (d : Distinct L k) {tid pid : BitVec 32} {env env' : Env}
    {file file' : Option Name} {flags flags' : BitVec 32} {op op' : Op} {s t s' t' : State} {o o' : Obs}
    {lg lg' : List Note} (hs : Lo.stepOp env file flags op s = .ok (lg, (s', o)))
    (ht : Lo.stepOp env' file' flags' op' t = .ok (lg', (t', o')))
    (hst : mirror (given op s) = mirror (given op' t))
    (h1 : ∀ n ∈ lg, Readable L k n ∧ Fits n ∧ (line L tid pid n).length ≤ 4096)
    (h2 : ∀ n ∈ lg', Readable L k n ∧ Fits n ∧ (line L tid pid n).length ≤ 4096)
    (h : printLog junk buf L tid pid 3 lg = printLog junk buf L tid pid 3 lg') : mirror s' = mirror t' := by
  have hf : ∀ l : List Note, (l.filter fun n => n.level ≤ 3) = l := fun l => List.filter_eq_self.2 fun n _ => by
    simpa using Spec.Text.level_le n
  rw [C108_prints_log hj hb L tid pid 3 lg fun n hn _ => ⟨(h1 n hn).1.null, (h1 n hn).2⟩,
    C108_prints_log hj hb L tid pid 3 lg' fun n hn _ => ⟨(h2 n hn).1.null, (h2 n hn).2⟩, hf, hf] at h
  have e := C108_unambiguous d (fun n hn => (h1 n hn).1) (fun n hn => (h2 n hn).1) (Except.ok.inj h)
  rw [← (C105_record hs).1, ← (C105_record ht).1, hst, e]

/-- **C108** Every message but one is a line of its own: one line break, at the end. -/
theorem C108_one_line (L : Layout) (tid pid : BitVec 32) {n : Note} (hp : Plain L n) (h : n ≠ .wrapMain) :
    ∃ t, line L tid pid n = t ++ [10] ∧ (10 : UInt8) ∉ t := by
  obtain ⟨t, h1, h2⟩ := Spec.Text.show_oneLine (Spec.Text.fields_clear hp) (Spec.Text.fields_oneLine L h)
  have hh := Spec.Text.head_no_break tid pid n
  have he : (10 : UInt8) ∉ nm "ERROR " := by decide +kernel
  unfold line
  rcases kind n with _ | (_ | _)
  · exact ⟨t, h1, h2⟩
  · refine ⟨Spec.Text.show (head tid pid n) ++ t, by dsimp only; rw [h1, List.append_assoc], ?_⟩
    simp [hh, h2]
  · refine ⟨nm "ERROR " ++ (Spec.Text.show (head tid pid n) ++ t), by
      dsimp only; rw [h1, List.append_assoc, List.append_assoc], ?_⟩
    simp [hh, h2, he]

/-- **C108**, refuted: the message about the internal wrappers of main has no line break; the message after it is on the
same line. -/
theorem C108_one_line_refuted (L : Layout) (tid pid : BitVec 32) : (10 : UInt8) ∉ line L tid pid .wrapMain := by
  have h1 := Spec.Text.head_no_break tid pid .wrapMain
  have h2 : (10 : UInt8) ∉ nm "Wrapping main with Gotcha's internal wrappers" := by decide +kernel
  have e : line L tid pid .wrapMain = Spec.Text.show (head tid pid .wrapMain) ++
    (nm "Wrapping main with Gotcha's internal wrappers" ++ []) := rfl
  rw [e]
  simp [h1, h2]

/-- **C108**, refuted for names with spaces (of a library, say): two different messages with the same line. -/
theorem C108_spaces_refuted (L : Layout) (tid pid : BitVec 32) : ∃ n m : Note, n ≠ m ∧ Fits n ∧ Fits m ∧
    hasNull n = false ∧ hasNull m = false ∧ line L tid pid n = line L tid pid m := by
  refine ⟨.notIn (nm "f") (nm "a not found in b"), .notIn (nm "f not found in a") (nm "b"), by decide +kernel, trivial,
    trivial, rfl, rfl, ?_⟩
  show Spec.Text.show (head tid pid _) ++ Spec.Text.show _ = Spec.Text.show (head tid pid _) ++ Spec.Text.show _
  congr 1
  simp only [fields, Spec.Text.show, List.flatMap_cons, List.flatMap_nil, Field.show]
  decide +kernel

namespace Ex108
open Demo

/-- Some layout. -/
def lay : Layout where
  var h := BitVec.ofNat 64 (0x1000 + 8 * h)
  field b := BitVec.ofNat 64 (0x2000 + 8 * b)
  handle h := BitVec.ofNat 64 (0x3000 + 8 * h)

/-- All objects are apart (as many as there could be). -/
theorem lay_apart : Distinct lay (2 ^ 60) := by
  have key : ∀ c < 0x4000, ∀ x < 2 ^ 60, (BitVec.ofNat 64 (c + 8 * x)).toNat = c + 8 * x := by
    intro c hc x hx
    rw [BitVec.toNat_ofNat, Nat.mod_eq_of_lt (by omega)]
  refine ⟨?_, ?_, ?_, ?_⟩
  iterate 3
    intro x hx y hy h
    have := congrArg BitVec.toNat h
    simp only [lay] at this
    rw [key _ (by omega) x hx, key _ (by omega) y hy] at this
    omega
  intro x hx h
  have := congrArg BitVec.toNat h
  simp only [lay] at this
  rw [key _ (by omega) x hx] at this
  have e : (-1#64).toNat = 2 ^ 64 - 1 := by decide
  omega

/-- The third event of the demo. -/
def lg : List Note := ((Ex105.logs.drop 2).take 1).flatten

theorem lg_eq : lg = [
    .one (.wrapCalled (some A) 1), .willMap 0 (nm "foo") 0x50c, .initNull 1, .clear 12, .generation 3, .creating,
    .tableFor 1 A, .processing 1, .rewrite (nm "foo") A 10, .toHead 10 (-1), .point 4 (some 0x50a),
    .needsBinding (nm "foo"), .callSites 1, .remap (nm "foo") 0x10000018 (nm "/bin/app") 0x50c, .one .wrapDone] := by
  rw [lg, Ex105.third]
  rfl

def plainFields (fs : List Field) : Bool := fs.all fun
  | .str s => s.all fun c => c != 32 && c != 10
  | _ => true

theorem plain_of {n : Note} (h : plainFields (fields lay n) = true) : Plain lay n := by
  intro s hs c hc
  have := List.all_eq_true.1 (List.all_eq_true.1 h _ hs) c hc
  simpa using this

/-- All its messages meet the conditions of the theorems. -/
theorem lg_ok : ∀ n ∈ lg, Readable lay (2 ^ 60) n ∧ Fits n ∧ (line lay 7 6 n).length ≤ 4096 := by
  rw [lg_eq]
  simp only [List.forall_mem_cons]
  and_intros
  all_goals first
    | (intro q hq; cases hq; done)
    | (show Readable _ _ _
       refine ⟨?_, ?_, plain_of (by decide +kernel), ?_⟩
       · first | trivial | exact (by decide : (12 : Nat) < 2 ^ 60) | exact (by decide : (4 : Nat) < 2 ^ 60)
       · rfl
       · intro b h; revert h; simp)
    | (simp only [Fits, Msg.Fits, Spec.Text.int32]; first | done | omega)
    | decide +kernel

/-- What is printed for it at level 2. -/
example : printLog (fun _ => List.replicate 64 7) (List.replicate 4096 7) lay 7 6 2 lg = .ok (nm
    "[7/6][gotcha.c:411] - User called gotcha_wrap for tool toolA with 1 bindings\n[7/6][gotcha.c:435] - Moved current_generation to 3 in gotcha_wrap\n[7/6][gotcha.c:438] - Creating internal binding data structures and adding binding to tool\n[7/6][tool.c:138] - Created new binding table of size 1 for tool toolA\n[7/6][gotcha.c:447] - Processing 1 bindings\n[7/6][gotcha.c:158] - gotcha_rewrite_wrapper_orders for binding foo in tool toolA of priority 10\n[7/6][gotcha.c:176] - New binding priority 10 is greater than head priority -1, adding to head\n[7/6][gotcha.c:467] - Symbol foo needs binding from application\n[7/6][gotcha.c:395] - Searching all callsites for 1 bindings\n[7/6][gotcha.c:489] - Gotcha wrap completed successfully\n") := by
  rw [C108_prints_log (fun _ => List.length_replicate) List.length_replicate lay 7 6 2 lg fun n hn _ => ⟨(lg_ok n hn).1.null, (lg_ok n hn).2⟩, lg_eq]
  congr 1
  decide +kernel

/-- The output determines the log. -/
example {lg' : List Note} (h' : ∀ n ∈ lg', Readable lay (2 ^ 60) n)
    (h : lg.flatMap (line lay 7 6) = lg'.flatMap (line lay 7 6)) : lg = lg' :=
  C108_unambiguous lay_apart (fun n hn => (lg_ok n hn).1) h' h

/-- The line of the message about the rewritten slot in the third event of the demo. -/
example : line lay 7 6 (.remap (nm "foo") 0x10000018 (nm "/bin/app") 0x50c) =
    nm "[7/6][gotcha.c:220] - Remapped call to foo at 0x10000018 in /bin/app to wrapper at 0x0x50c\n" := by
  decide +kernel

example : line lay 7 6 (.markFailed .gotOnly) = nm "ERROR [7/6][gotcha.c:337] - GOTCHA attempted to mark the only GOT table as writable and was unable to do so, calls to wrapped functions may likely fail.\n" := by
  decide +kernel

example : line lay 7 6 (.willMap 0 (nm "foo") 0x50c) = nm "\t0: foo will map to 0x50c\n" := by decide +kernel

/-- Not vacuous: one of these messages as a line. -/
example : ∃ t, line lay 7 6 (.rewrite (nm "foo") A 10) = t ++ [10] ∧ (10 : UInt8) ∉ t :=
  C108_one_line lay 7 6 (plain_of (by decide +kernel)) (by simp)

/-- Not vacuous: the third event of the demo, against any event with the same output in a process that looks the same
before it. -/
example : ∃ s os s' o, run proc.env (ops.take 2) proc.start = .ok (s, os) ∧
    ∀ {env' file' flags' op' t t' o' lg'}, Lo.stepOp env' file' flags' op' t = .ok (lg', (t', o')) →
      mirror s = mirror (given op' t) →
      (∀ n ∈ lg', Readable lay (2 ^ 60) n ∧ Fits n ∧ (line lay 7 6 n).length ≤ 4096) →
      printLog (fun _ => List.replicate 64 7) (List.replicate 4096 7) lay 7 6 3 lg =
        printLog (fun _ => List.replicate 64 7) (List.replicate 4096 7) lay 7 6 3 lg' →
      Lo.stepOp proc.env (some (nm "libp.so")) 1 (.wrap [⟨nm "foo", 0x50c, 12⟩] (some A)) s = .ok (lg, (s', o)) ∧
      mirror s' = mirror t' := by
  have hq : (match run proc.env (ops.take 2) proc.start with
      | .ok (s, _) => (match Lo.stepOp proc.env (some (nm "libp.so")) 1 (.wrap [⟨nm "foo", 0x50c, 12⟩] (some A)) s with
        | .ok (l, _) => l == [
    .one (.wrapCalled (some A) 1), .willMap 0 (nm "foo") 0x50c, .initNull 1, .clear 12, .generation 3, .creating,
    .tableFor 1 A, .processing 1, .rewrite (nm "foo") A 10, .toHead 10 (-1), .point 4 (some 0x50a),
    .needsBinding (nm "foo"), .callSites 1, .remap (nm "foo") 0x10000018 (nm "/bin/app") 0x50c, .one .wrapDone]
        | .error _ => false)
      | .error _ => false) = true := by decide +kernel
  split at hq
  · rename_i s os e
    split at hq
    · rename_i l x e'
      have hl : l = lg := by rw [lg_eq]; simpa using hq
      subst hl
      refine ⟨s, os, x.1, x.2, e, fun ht hst h2 h => ⟨e', ?_⟩⟩
      exact C108_output_tells (fun _ => List.length_replicate) List.length_replicate lay_apart e' ht hst lg_ok h2 h
    · cases hq
  · cases hq

end Ex108
end Gotcha
