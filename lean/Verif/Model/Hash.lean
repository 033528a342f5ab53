import Verif.Model.Basic
/-
Model of src/hash.c: open addressing hash table with tombstones, growth, and a doubly
linked list threaded through the entries in use.

Pointers to entries (`hash_entry_t *`) are indices into the slot array; NULL is `none`.
Keys and data are opaque (`void *`); the hash function and the comparison function stored in
the C table (`hashfunc`, `keycmp`) are passed by the caller: operations take the hash value of
the key and the predicate "keycmp(stored, key) == 0".
-/
namespace Gotcha

/-- src/hash.c:20-22 `EMPTY`, `TOMBSTONE`, `INUSE`. -/
inductive Status where
  | empty | tombstone | inuse
  deriving DecidableEq, Repr

/-- src/hash.c:24-31 `struct hash_entry_t`.  The default value is a zeroed entry
(`gotcha_memset(.., 0, ..)`). -/
structure Entry (K D : Type) where
  key : Option K := none
  data : Option D := none
  hash : BitVec 32 := 0
  next : Option Nat := none
  prev : Option Nat := none
  status : Status := .empty
  deriving Repr, DecidableEq

/-- src/hash.h:30-37 `hash_table_t`; `table_size` is `slots.length`. -/
structure HTable (K D : Type) where
  slots : List (Entry K D)
  count : Nat
  head : Option Nat
  deriving Repr, DecidableEq

variable {K D : Type}

namespace HTable

/-- `table->table_size`. -/
abbrev size (t : HTable K D) : Nat := t.slots.length

/-- src/hash.c:60 and :133 `(unsigned long)value % table->table_size`: the `int` hash value is
sign-extended to 64 bits in both places. -/
def home (hv : BitVec 32) (size : Nat) : Nat := (hv.signExtend 64).toNat % size

/-- `sizeof(hash_entry_t)` on LP64 (src/hash.c:24-31): 8+8+4(+4)+8+8+4(+4). -/
def entrySize : Nat := 48

/-- A table of `n` zeroed entries (src/hash.c:44-53, :93-100). -/
def blank (n : Nat) : HTable K D :=
  { slots := List.replicate n {}, count := 0, head := none }

/-- src/hash.c:35-56 `create_hashtable`.  `page` is `gotcha_getpagesize()`.
Simplification: allocation succeeds (the `-1` return of line 45 is not modelled). -/
def create (page initial : Nat) : Except Fault (HTable K D) :=
  let perPage := page / entrySize
  if perPage = 0 then .error .divZero
  else
    let n := if initial % perPage ≠ 0 then initial + (perPage - initial % perPage) else initial
    .ok (blank n)

/-- The probing loop of src/hash.c:63-75: returns the last entry examined and whether it was
free (and hence filled).  `fuel` bounds the number of iterations; the C loop stops by itself
after `size` iterations because `index` returns to `startindex`. -/
def insertProbe (slots : List (Entry K D)) (start : Nat) : Nat → Nat → Nat × Bool
  | 0, i => (i, false)
  | fuel + 1, i =>
    match slots[i]? with
    | some e =>
      if e.status = .empty ∨ e.status = .tombstone then (i, true)
      else
        let j := if i + 1 = slots.length then 0 else i + 1
        if j = start then (i, false) else insertProbe slots start fuel j
    | none => (i, false)

/-- src/hash.c:79-83: push entry `i` on the front of the threaded list. -/
def linkFront (slots : List (Entry K D)) (head : Option Nat) (i : Nat) : List (Entry K D) :=
  let slots := slots.modify i (fun e => { e with next := head, prev := none })
  match head with
  | some h => slots.modify h (fun e => { e with prev := some i })
  | none => slots

/-- src/hash.c:58-86 `insert`. -/
def insert (t : HTable K D) (key : K) (data : D) (hv : BitVec 32) :
    Except Fault (HTable K D) :=
  if t.size = 0 then .error .divZero
  else
    let start := home hv t.size
    let (i, filled) := insertProbe t.slots start t.size start
    let slots :=
      if filled then
        t.slots.modify i (fun e =>
          { e with key := some key, data := some data, hash := hv, status := .inuse })
      else t.slots
    .ok { slots := linkFront slots t.head i, count := t.count + 1, head := some i }

/-- Loop of src/hash.c:102-110: re-insert every entry in use, in slot order. -/
def reinsert : List (Entry K D) → HTable K D → Except Fault (HTable K D)
  | [], t => .ok t
  | e :: es, t =>
    match e.status with
    | .inuse =>
      match e.key, e.data with
      | some k, some d =>
        match insert t k d e.hash with
        | .ok t' => reinsert es t'
        | .error f => .error f
      | _, _ => .error .nullDeref
    | _ => reinsert es t

/-- src/hash.c:88-115 `grow_hashtable`.  Simplifications: allocation succeeds; an entry in use
always carries a key and data (NULL keys/data of an entry in use would be copied in C, the model
reports a fault; it is proved unreachable). -/
def grow (t : HTable K D) (newSize : Nat) : Except Fault (HTable K D) :=
  reinsert t.slots (blank newSize)

/-- Probing loop of src/hash.c:136-148 in `lookup`.  The third test of the C loop
(`index == startindex`) ends the scan after one round. -/
def lookupProbe (slots : List (Entry K D)) (hv : BitVec 32) (eq : K → Bool) (start : Nat) :
    Nat → Nat → Except Fault (Option Nat)
  | 0, _ => .error .diverge
  | fuel + 1, i =>
    match slots[i]? with
    | none => .error .outOfBounds
    | some e =>
      if e.status = .inuse ∧ e.hash = hv ∧ e.key.any eq = true then
        .ok (some i)
      else if e.status = .empty then .ok none
      else
        let j := if i + 1 = slots.length then 0 else i + 1
        if j = start then .ok none else lookupProbe slots hv eq start fuel j

/-- src/hash.c:128-149 `lookup`: index of the entry found, `none` for `-1`. -/
def lookupEntry (t : HTable K D) (hv : BitVec 32) (eq : K → Bool) : Except Fault (Option Nat) :=
  if t.size = 0 then .error .divZero
  else lookupProbe t.slots hv eq (home hv t.size) t.size (home hv t.size)

/-- src/hash.c:151-159 `lookup_hashtable`. -/
def lookup (t : HTable K D) (hv : BitVec 32) (eq : K → Bool) : Except Fault (Option D) :=
  match lookupEntry t hv eq with
  | .error f => .error f
  | .ok none => .ok none
  | .ok (some i) =>
    match t.slots[i]? with
    | some e => .ok e.data
    | none => .error .outOfBounds

/-- src/hash.c:167-168 `while (entry_count > newsize / 2) newsize *= 2`.  `fuel` bounds the number
of iterations (each doubles a non-zero size; a zero size loops forever in C): `diverge`.
`size_t` overflow of the doubling is not modelled (sizes are unbounded naturals). -/
def growLoop (count : Nat) : Nat → Nat → Except Fault Nat
  | 0, size => if count > size / 2 then .error .diverge else .ok size
  | fuel + 1, size => if count > size / 2 then growLoop count fuel (size * 2) else .ok size

/-- `growLoop` with enough fuel. -/
def growSize (count : Nat) (size : Nat) : Except Fault Nat := growLoop count (2 * count) size

/-- src/hash.c:161-179 `addto_hashtable`. -/
def addto (t : HTable K D) (key : K) (data : D) (hv : BitVec 32) : Except Fault (HTable K D) :=
  match growSize t.count t.size with
  | .error f => .error f
  | .ok newSize =>
    if newSize ≠ t.size then
      match grow t newSize with
      | .error f => .error f
      | .ok t' => insert t' key data hv
    else insert t key data hv

/-- src/hash.c:192-194: unlink entry `i` (whose links are `next`, `prev`) from the list. -/
def unlink (slots : List (Entry K D)) (next prev : Option Nat) : List (Entry K D) :=
  let slots := match next with
    | some n => slots.modify n (fun e => { e with prev := prev })
    | none => slots
  match prev with
  | some p => slots.modify p (fun e => { e with next := next })
  | none => slots

/-- src/hash.c:181-200 `removefrom_hashtable`; the Boolean is `true` for return value `0`.
The links of the removed entry itself are left in place (comment at :195). -/
def removefrom (t : HTable K D) (hv : BitVec 32) (eq : K → Bool) :
    Except Fault (HTable K D × Bool) :=
  match lookupEntry t hv eq with
  | .error f => .error f
  | .ok none => .ok (t, false)
  | .ok (some i) =>
    match t.slots[i]? with
    | none => .error .outOfBounds
    | some e =>
      let slots := t.slots.modify i (fun e =>
        { e with key := none, data := none, hash := 0, status := .tombstone })
      .ok ({ slots := unlink slots e.next e.prev,
             count := t.count - 1,
             head := if t.head = some i then e.next else t.head }, true)

end HTable

/-- src/hash.c:202-212 `foreach_hash_entry`, for a table that lives inside a larger state `σ`
and a callback that may change the state (including the table).  The callback's Boolean is
"returned non-zero".  `i = i->next` is read after the callback returns.  `fuel` bounds the
number of iterations; running out of it is reported as divergence. -/
def foreachEntry {σ : Type} (getT : σ → HTable K D)
    (cb : Option K → Option D → σ → Except Fault (σ × Bool)) :
    Nat → Option Nat → σ → Except Fault σ
  | _, none, s => .ok s
  | 0, some _, _ => .error .diverge
  | fuel + 1, some i, s =>
    match (getT s).slots[i]? with
    | none => .error .outOfBounds
    | some e =>
      match cb e.key e.data s with
      | .error f => .error f
      | .ok (s', true) => .ok s'
      | .ok (s', false) =>
        match (getT s').slots[i]? with
        | none => .error .outOfBounds
        | some e' => foreachEntry getT cb fuel e'.next s'

/-- src/hash.c:214-221 `strhash`: 64-bit accumulation with sign-extended characters, truncated
to `int`.  `char` is signed (x86-64). -/
def strhash (s : Name) : BitVec 32 :=
  (s.foldl (fun (h : BitVec 64) c => h * 33 + c.toBitVec.signExtend 64) 5381).truncate 32

end Gotcha
