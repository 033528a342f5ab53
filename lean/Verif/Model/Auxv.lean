import Verif.Model.Basic
/-
Model of src/gotcha_auxv.c and of `gotcha_getpagesize` (src/libc_wrappers.c:298-305).

Local arrays are lists of cells; `none` is a byte that was never written.  Reading such a byte is the
fault `uninit`, an index outside the array is `outOfBounds`.  A file is what is left of its contents
and a schedule that says how the next calls of `read` behave.
-/
namespace Gotcha.Auxv
open Gotcha

/-- How one call of `read` behaves: it returns at most `k + 1` bytes, or is interrupted (EINTR), or
fails. -/
inductive Ev where
  | short (k : Nat)
  | eintr
  | fail
  deriving DecidableEq

/-- An open file.  When the schedule is used up, `read` returns as much as it can. -/
structure File where
  bytes : List UInt8
  sched : List Ev

/-- The outcome of `read`; end of file is `data []`. -/
inductive ReadResult where
  | data (bs : List UInt8)
  | eintr
  | fail

/-- src/libc_wrappers.c:365-367 `gotcha_read` of `count` bytes. -/
def read (f : File) (count : Nat) : ReadResult × File :=
  match f.sched with
  | [] => (.data (f.bytes.take count), { f with bytes := f.bytes.drop count })
  | .short k :: s => (.data (f.bytes.take (min count (k + 1))),
      { bytes := f.bytes.drop (min count (k + 1)), sched := s })
  | .eintr :: s => (.eintr, { f with sched := s })
  | .fail :: s => (.fail, { f with sched := s })

/-- A local char array. -/
abbrev Buf := List (Option UInt8)

/-- src/gotcha_auxv.c:34 `BUFFER_LEN`. -/
def bufferLen : Nat := 4096

/-- A fresh array of `BUFFER_LEN` chars. -/
def freshBuf : Buf := List.replicate bufferLen none

/-- `buf[i]`. -/
def cell (b : Buf) (i : Nat) : Except Fault UInt8 :=
  match b[i]? with
  | none => .error .outOfBounds
  | some none => .error .uninit
  | some (some c) => .ok c

/-- `buf[i] = c`. -/
def setCell (b : Buf) (i : Nat) (c : UInt8) : Except Fault Buf :=
  if i < b.length then .ok (b.set i (some c)) else .error .outOfBounds

/-- The bytes that `read` stored from index `i` on. -/
def fill (b : Buf) (i : Nat) (bs : List UInt8) : Buf :=
  b.take i ++ bs.map some ++ b.drop (i + bs.length)

/-! ### The auxiliary vector -/

/-- Little-endian value. -/
def leNat (bs : List UInt8) : Nat := bs.foldr (fun b v => b.toNat + 256 * v) 0

/-- The `n` cells from index `i` on. -/
def cells (b : Buf) (i : Nat) : Nat → Except Fault (List UInt8)
  | 0 => .ok []
  | n + 1 =>
    match cell b i with
    | .error f => .error f
    | .ok c =>
      match cells b (i + 1) n with
      | .error f => .error f
      | .ok cs => .ok (c :: cs)

/-- src/gotcha_auxv.c:32-33,43: the static variables `parsed_auxv`, `vdso_ehdr` and `auxv_pagesz`. -/
structure AuxState where
  parsed : Int
  ehdr : Nat
  pagesz : Nat
  deriving DecidableEq

def AuxState.init : AuxState := ⟨0, 0, 0⟩

/-- src/gotcha_auxv.c:75-82: the loop over the entries of the buffer, at entry `i` (16 bytes each, type
and value).  AT_NULL is 0, AT_SYSINFO_EHDR 33 and AT_PAGESZ 6 (elf.h).  The page size is converted to
`int` and to `unsigned int`.  The loop leaves the buffer after 256 entries. -/
def scan (b : Buf) : Nat → Nat → AuxState → Except Fault AuxState
  | 0, _, _ => .error .diverge
  | n + 1, i, st =>
    match cells b (16 * i) 8 with
    | .error f => .error f
    | .ok t =>
      if leNat t = 0 then .ok st
      else if leNat t = 33 then
        match cells b (16 * i + 8) 8 with
        | .error f => .error f
        | .ok v => scan b n (i + 1) { st with ehdr := leNat v }
      else if leNat t = 6 then
        match cells b (16 * i + 8) 8 with
        | .error f => .error f
        | .ok v => scan b n (i + 1) { st with pagesz := leNat v % 2 ^ 32 }
      else scan b n (i + 1) st

/-- How the reading loop (src/gotcha_auxv.c:55-73) ends. -/
inductive Loaded where
  | failed
  | done (b : Buf)
  | full (b : Buf) (f : File)

/-- src/gotcha_auxv.c:55-73: the reading loop.  It runs once per scheduled event and per byte at most,
which bounds the number of steps given below. -/
def fillBuffer : Nat → Buf → Nat → File → Except Fault Loaded
  | 0, _, _, _ => .error .diverge
  | n + 1, b, offset, f =>
    match read f (bufferLen - offset) with
    | (.fail, _) => .ok .failed
    | (.eintr, f') => fillBuffer n b offset f'
    | (.data bs, f') =>
      if bs = [] then .ok (.done b)
      else if offset = bufferLen then .ok (.full b f')
      else fillBuffer n (fill b offset bs) (offset + bs.length) f'

/-- Steps enough for every loop over a file. -/
def File.fuel (f : File) : Nat := f.bytes.length + f.sched.length + 2

/-- src/gotcha_auxv.c:54-83: the outer loop.  Simplification: a second round (`full`) starts again with
the file that is left; `read` never returns data into 0 bytes, so there is none. -/
def parseLoop : Nat → Buf → Nat → File → AuxState → Except Fault (Option AuxState)
  | 0, _, _, _, _ => .error .diverge
  | n + 1, b, offset, f, st =>
    match fillBuffer f.fuel b offset f with
    | .error e => .error e
    | .ok .failed => .ok none
    | .ok (.done b') =>
      match scan b' 257 0 st with
      | .error e => .error e
      | .ok st' => .ok (some st')
    | .ok (.full b' f') =>
      match scan b' 257 0 st with
      | .error e => .error e
      | .ok st' => parseLoop n b' bufferLen f' st'

/-- src/gotcha_auxv.c:36-86 `parse_auxv_contents`; `auxv` is /proc/self/auxv if it can be opened. -/
def parseAuxv (st : AuxState) (auxv : Option File) : Except Fault (AuxState × Int) :=
  if st.parsed ≠ 0 then .ok (st, if st.parsed = -1 then -1 else 0)
  else
    match auxv with
    | none => .ok ({ st with parsed := -1 }, -1)
    | some f =>
      match parseLoop f.fuel freshBuf 0 f { st with parsed := 1 } with
      | .error e => .error e
      | .ok none => .ok ({ st with parsed := -1 }, -1)
      | .ok (some st') => .ok (st', 0)

/-- src/gotcha_auxv.c:116-120 `get_auxv_pagesize`. -/
def auxvPagesize (st : AuxState) (auxv : Option File) : Except Fault (AuxState × Nat) :=
  match parseAuxv st auxv with
  | .error e => .error e
  | .ok (st', r) => .ok (st', if r = -1 then 0 else st'.pagesz)

/-- src/libc_wrappers.c:298-305 `gotcha_getpagesize`, with its static variable `pagesz`. -/
def getpagesize (pagesz : Nat) (st : AuxState) (auxv : Option File) :
    Except Fault (Nat × AuxState × Nat) :=
  if pagesz ≠ 0 then .ok (pagesz, st, pagesz)
  else
    match auxvPagesize st auxv with
    | .error e => .error e
    | .ok (st', p) =>
      let p := if p = 0 then 4096 else p
      .ok (p, st', p)

/-! ### The vdso -/

/-- A `struct link_map`: its address, `l_addr`, `l_ld` and `l_name` (`none` is NULL). -/
structure LinkMap where
  lm : Addr
  addr : Addr
  ld : Addr
  name : Option Name

/-- src/gotcha_auxv.c:122 `vdso_aliases`. -/
def aliases : List Name := [nm "linux-vdso.so", nm "linux-gate.so"]

/-- src/gotcha_auxv.c:124-136 `get_vdso_from_aliases`.  Simplification: `gotcha_strcmp` of two strings
is 0 just when they are equal (C40). -/
def vdsoFromAliases (maps : List LinkMap) : Option LinkMap :=
  maps.find? (fun m => match m.name with
    | none => false
    | some n => aliases.any (fun a => n == a))

/-- A program header: `p_type` and `p_vaddr`. -/
structure Phdr where
  type : Nat
  vaddr : Addr

/-- src/gotcha_auxv.c:101-105: the last PT_DYNAMIC (2) header, 0 if there is none. -/
def dynamicOf : List Phdr → Addr → Addr
  | [], d => d
  | p :: ps, d => dynamicOf ps (if p.type = 2 then p.vaddr else d)

/-- src/gotcha_auxv.c:88-114 `get_vdso_from_auxv`; `image` gives the program headers of the ELF image
at an address.  The result of `parse_auxv_contents` is ignored. -/
def vdsoFromAuxv (st : AuxState) (auxv : Option File) (image : Nat → List Phdr)
    (maps : List LinkMap) : Except Fault (AuxState × Option LinkMap) :=
  match parseAuxv st auxv with
  | .error e => .error e
  | .ok (st', _) =>
    if st'.ehdr ≠ 0 then
      let dyn := dynamicOf (image st'.ehdr) 0
      .ok (st', maps.find? (fun m => m.addr + dyn == m.ld))
    else .ok (st', none)

/-- src/gotcha_auxv.c:138-154 `read_line`, from index `i` on with `n` steps left; the result is false
at the end of the file.  The characters are read one by one; after an interruption the index is
incremented although nothing was read. -/
def readLineLoop : Nat → Nat → Buf → File → Except Fault (Buf × File × Bool)
  | 0, i, b, f =>
    match setCell b i 0 with
    | .error e => .error e
    | .ok b' => .ok (b', f, true)
  | n + 1, i, b, f =>
    match read f 1 with
    | (.eintr, f') => readLineLoop n (i + 1) b f'
    | (.fail, f') =>
      match setCell b i 0 with
      | .error e => .error e
      | .ok b' => .ok (b', f', false)
    | (.data [], f') =>
      match setCell b i 0 with
      | .error e => .error e
      | .ok b' => .ok (b', f', false)
    | (.data (c :: _), f') =>
      match setCell b i c with
      | .error e => .error e
      | .ok b' =>
        if c = 10 then
          match setCell b' (i + 1) 0 with
          | .error e => .error e
          | .ok b'' => .ok (b'', f', true)
        else readLineLoop n (i + 1) b' f'

/-- src/gotcha_auxv.c:138-154 `read_line(line, size, fd)`. -/
def readLine (b : Buf) (size : Nat) (f : File) : Except Fault (Buf × File × Bool) :=
  readLineLoop (size - 1) 0 b f

/-- src/gotcha_auxv.c:159-167: the value of a hexadecimal digit. -/
def hexDigit (c : UInt8) : Option Nat :=
  if 48 ≤ c ∧ c ≤ 57 then some (c.toNat - 48)
  else if 97 ≤ c ∧ c ≤ 102 then some (c.toNat - 97 + 10)
  else if 65 ≤ c ∧ c ≤ 70 then some (c.toNat - 65 + 10)
  else none

/-- src/gotcha_auxv.c:156-174 `read_hex` at index `i`: the value and the number of digits.  The loop
leaves the array after its length. -/
def readHexLoop (b : Buf) : Nat → Nat → BitVec 64 → Nat → Except Fault (BitVec 64 × Nat)
  | 0, _, _, _ => .error .diverge
  | n + 1, i, v, len =>
    match cell b i with
    | .error e => .error e
    | .ok c =>
      match hexDigit c with
      | none => .ok (v, len)
      | some d => readHexLoop b n (i + 1) (v * 16 + BitVec.ofNat 64 d) (len + 1)

/-- src/gotcha_auxv.c:156-174 `read_hex`. -/
def readHex (b : Buf) (i : Nat) : Except Fault (BitVec 64 × Nat) :=
  readHexLoop b (b.length + 1) i 0 0

/-- src/gotcha_auxv.c:179: blank, tab or newline. -/
def isBlank (c : UInt8) : Bool := c == 32 || c == 9 || c == 10

/-- src/gotcha_auxv.c:179-182: skip blanks from index `i` on; the number of them. -/
def skipBlanks (b : Buf) : Nat → Nat → Nat → Except Fault Nat
  | 0, _, _ => .error .diverge
  | n + 1, i, len =>
    match cell b i with
    | .error e => .error e
    | .ok c => if isBlank c then skipBlanks b n (i + 1) (len + 1) else .ok len

/-- src/gotcha_auxv.c:187-200: copy a word from index `i` on to `word` (`none` is NULL). -/
def wordLoop (b : Buf) (wordSize : Nat) :
    Nat → Nat → Nat → Nat → Option Buf → Except Fault (Nat × Option Buf)
  | 0, _, _, _, _ => .error .diverge
  | n + 1, i, cur, len, word =>
    match cell b i with
    | .error e => .error e
    | .ok c =>
      if isBlank c || c == 0 then
        let cur := if cur ≥ wordSize then cur - 1 else cur
        match word with
        | none => .ok (len, none)
        | some w =>
          match setCell w cur 0 with
          | .error e => .error e
          | .ok w' => .ok (len, some w')
      else
        match word with
        | none => wordLoop b wordSize n (i + 1) (cur + 1) (len + 1) none
        | some w =>
          if cur ≥ wordSize then
            if wordSize > 0 then
              match setCell w (wordSize - 1) 0 with
              | .error e => .error e
              | .ok w' => .ok (cur, some w')
            else .ok (cur, some w)
          else
            match setCell w cur c with
            | .error e => .error e
            | .ok w' => wordLoop b wordSize n (i + 1) (cur + 1) (len + 1) (some w')

/-- src/gotcha_auxv.c:176-201 `read_word` at index `i`: the returned length and the word. -/
def readWord (b : Buf) (i : Nat) (word : Option Buf) (wordSize : Nat) :
    Except Fault (Nat × Option Buf) :=
  match skipBlanks b (b.length + 1) i 0 with
  | .error e => .error e
  | .ok len =>
    match cell b (i + len) with
    | .error e => .error e
    | .ok c =>
      if c = 0 then
        match word with
        | none => .error .nullDeref
        | some w =>
          match setCell w 0 0 with
          | .error e => .error e
          | .ok w' => .ok (len, some w')
      else wordLoop b wordSize (b.length + 1) (i + len) 0 len word

/-- The C string in an array. -/
def bufStr (b : Buf) : Nat → Nat → Except Fault Name
  | 0, _ => .error .diverge
  | n + 1, i =>
    match cell b i with
    | .error e => .error e
    | .ok c =>
      if c = 0 then .ok []
      else
        match bufStr b n (i + 1) with
        | .error e => .error e
        | .ok s => .ok (c :: s)

/-- src/gotcha_auxv.c:215-224: one line: `none` if there is no `-` after the first number, else begin,
end and the array `name`. -/
def parseLine (b name : Buf) : Except Fault (Option (BitVec 64 × BitVec 64 × Buf)) := do
  let (lo, n1) ← readHex b 0
  let c ← cell b n1
  if c ≠ 45 then return none
  let (hi, n2) ← readHex b (n1 + 1)
  let p := n1 + 1 + n2
  let (k1, _) ← readWord b p none 0
  let (k2, _) ← readWord b (p + k1) none 0
  let (k3, _) ← readWord b (p + k1 + k2) none 0
  let (k4, _) ← readWord b (p + k1 + k2 + k3) none 0
  let (_, w) ← readWord b (p + k1 + k2 + k3 + k4) (some name) bufferLen
  match w with
  | none => return none
  | some w => return some (lo, hi, w)

/-- src/gotcha_auxv.c:209-229: the loop over the lines; `none` at the end of the file, else begin and
end of the mapping called `[vdso]`. -/
def mapsLoop : Nat → Buf → Buf → File → Except Fault (Option (BitVec 64 × BitVec 64))
  | 0, _, _, _ => .error .diverge
  | n + 1, line, name, f =>
    match readLine line bufferLen f with
    | .error e => .error e
    | .ok (_, _, false) => .ok none
    | .ok (line', f', true) =>
      match parseLine line' name with
      | .error e => .error e
      | .ok none => mapsLoop n line' name f'
      | .ok (some (lo, hi, name')) =>
        match bufStr name' (bufferLen + 1) 0 with
        | .error e => .error e
        | .ok s => if s = nm "[vdso]" then .ok (some (lo, hi)) else mapsLoop n line' name' f'

/-- src/gotcha_auxv.c:203-237 `get_vdso_from_maps`; `file` is /proc/self/maps if it can be opened;
otherwise the first `read` fails. -/
def vdsoFromMaps (file : Option File) (maps : List LinkMap) : Except Fault (Option LinkMap) :=
  match file with
  | none => .ok none
  | some f =>
    match mapsLoop f.fuel freshBuf freshBuf f with
    | .error e => .error e
    | .ok none => .ok none
    | .ok (some (lo, hi)) => .ok (maps.find? (fun m => decide (lo ≤ m.ld) && decide (m.ld < hi)))

/-- What `is_vdso` finds outside: the link map, the two files and the ELF image. -/
structure Outside where
  maps : List LinkMap
  auxv : Option File
  mapsFile : Option File
  image : Nat → List Phdr

/-- src/gotcha_auxv.c:240-241: `vdso_checked` and `vdso` (`none` is NULL), with the static variables of
the auxiliary vector. -/
structure VdsoState where
  checked : Bool
  vdso : Option Addr
  aux : AuxState
  deriving DecidableEq

def VdsoState.init : VdsoState := ⟨false, none, AuxState.init⟩

/-- src/gotcha_auxv.c:239-268 `is_vdso`; `none` is a NULL argument. -/
def isVdso (st : VdsoState) (o : Outside) (map : Option Addr) : Except Fault (VdsoState × Bool) :=
  match map with
  | none => .ok (st, false)
  | some m =>
    if st.checked then .ok (st, decide (some m = st.vdso))
    else
      match vdsoFromAliases o.maps with
      | some r => .ok ({ st with checked := true, vdso := some r.lm }, decide (m = r.lm))
      | none =>
        match vdsoFromAuxv st.aux o.auxv o.image o.maps with
        | .error e => .error e
        | .ok (aux, some r) => .ok ({ checked := true, vdso := some r.lm, aux }, decide (m = r.lm))
        | .ok (aux, none) =>
          match vdsoFromMaps o.mapsFile o.maps with
          | .error e => .error e
          | .ok (some r) => .ok ({ checked := true, vdso := some r.lm, aux }, decide (m = r.lm))
          | .ok none => .ok ({ checked := true, vdso := none, aux }, false)

end Gotcha.Auxv
