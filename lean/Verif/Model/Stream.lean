import Verif.Model.Fmt

/-!
# The log statement: LogStream

Transcribed from `/repo/src/include/fn_stream.h` (class LogStream 69-466), `short_path` (fn_file.h 394-413),
the terminator part of `PushChannel` (fn_channel.h 495-497) and the body of `LOG_FORMAT` (fn_macro.h
214-220).

A record is `LogData::content_` (a list of `LOG_SIZE` bytes) and `content_len_`.  Every `operator<<` is
broken into primitive writes (`Prim`), exactly as the code does it by calling other operators;
`execAll` runs them.  `none` = undefined behaviour.

Simplifications: string lengths fit into an `int`; a C string is the list of its bytes before the NUL;
`float` arguments are given as the equal `double`; the elements of a container are given in iteration
order.
-/

namespace FNLog

/-- `content_` and `content_len_` of `LogData` (fn_data.h 143-144). -/
structure Rec where
  content : List Char
  len : Nat
deriving DecidableEq, Repr

/-- Constants and library behaviour: `LOG_SIZE`, C library number formatting, local time. -/
structure Env where
  N : Nat
  lib : Libc
  zone : Zone

/-- A `LogStream` (`log_data_`, `none` = nullptr) together with the thread's date cache. -/
structure Strm where
  data : Option Rec
  cache : DateCache

/-- Primitive writes of a stream. -/
inductive Prim where
  /-- `write_buffer` (218-227) -/
  | buf (s : List Char)
  /-- `write_ulonglong<Wide>` (239-246) -/
  | ull (wide : Int) (n : Nat)
  /-- `write_longlong<Wide>` (230-238) -/
  | ll (wide : Int) (n : Int)
  /-- `write_pointer` (258-265) -/
  | ptr (p : Nat)
  /-- 291-294: `write_pointer` behind an additional test for `sizeof(void*)` bytes -/
  | ptrIf8 (p : Nat)
  /-- 296-305: the hex bytes of one row of `write_binary` -/
  | hexRow (bytes : List Nat)
  /-- `operator<<(double)` (365-372) and `operator<<(float)` (357-364) -/
  | dbl (d : Dbl)
  /-- `operator<<(LogBlankAlign<N>)` (421-432) -/
  | blank (n : Nat)
  /-- `operator<<(LogPercent)` (433-448); `d` is the `float` -/
  | percent (d : Dbl)
  /-- `operator<<(LogTimestamp)` (450-458); `precise` already converted to `unsigned` -/
  | stamp (ts : Int) (precise : Nat)
deriving DecidableEq, Repr

/-- Store `s` at `content_len_` without a test and advance (`write_char_unsafe` 206-211,
`write_buffer_unsafe` 212-217). -/
def Rec.pushUnsafe (r : Rec) (s : List Char) : Option Rec := do
  let c ← writeAt r.content r.len s
  some ⟨c, r.len + s.length⟩

/-- `content_len_ += f(content_ + content_len_, …)`. -/
def Rec.fmt (r : Rec) (f : List Char → Nat → Option (List Char × Nat)) : Option Rec := do
  let p ← f r.content r.len
  some ⟨p.1, r.len + p.2⟩

/-- `write_buffer` (fn_stream.h 218-227). -/
def writeBuffer (N : Nat) (r : Rec) (s : List Char) : Option Rec :=
  if 0 < s.length ∧ r.len < N then r.pushUnsafe (s.take (min s.length (N - r.len))) else some r

/-- The loop 296-305. -/
def hexRow (N : Nat) : List Nat → Rec → Option Rec
  | [], r => some r
  | x :: xs, r =>
    if r.len + 30 ≥ N then some r
    else do
      let r ← r.fmt (fun b dst => writeHex 2 b dst x)
      let r ← writeBuffer N r [' ']
      hexRow N xs r

/-- `for (i = content_len_; i < BLANK_SIZE; i++) write_char_unsafe(' ')` (425-428); `n` rounds. -/
def blankLoop : Nat → Rec → Option Rec
  | 0, r => some r
  | n + 1, r => do
    let r ← r.pushUnsafe [' ']
    blankLoop n r

/-- A pointer with the given address. -/
def ptrOf (p : Nat) : Option Nat := if p = 0 then none else some p

/-- One primitive write. -/
def exec (E : Env) (s : Strm) (p : Prim) : Option Strm :=
  match s.data with
  | none => some s
  | some r =>
    let upd (o : Option Rec) : Option Strm := o.map (fun r => { s with data := some r })
    match p with
    | .buf t => upd (writeBuffer E.N r t)
    | .ull w n => if r.len + 30 ≤ E.N then upd (r.fmt (fun b d => writeDecU w b d n)) else some s
    | .ll w n => if r.len + 30 ≤ E.N then upd (r.fmt (fun b d => writeDecS w b d n)) else some s
    | .ptr q => if r.len + 30 ≤ E.N then upd (r.fmt (fun b d => writePointer b d (ptrOf q))) else some s
    | .ptrIf8 q =>
      if r.len + 8 ≤ E.N then
        if r.len + 30 ≤ E.N then upd (r.fmt (fun b d => writePointer b d (ptrOf q))) else some s
      else some s
    | .hexRow bs => upd (hexRow E.N bs r)
    | .dbl x => if r.len + 30 ≤ E.N then upd (r.fmt (fun b d => writeDouble E.lib b d x)) else some s
    | .blank n => if r.len + n < E.N then upd (blankLoop (n - r.len) r) else some s
    | .percent x =>
      if r.len + 40 < E.N then
        -- 437-440
        if x.below1em6 then upd (writeBuffer E.N r "00.00%".toList)
        -- 443-444
        else upd (do
          let r ← r.fmt (fun b d => writeDouble E.lib b d x.times100)
          r.pushUnsafe ['%'])
      else some s
    | .stamp ts precise =>
      if r.len + 40 < E.N then do
        let (b, n, c) ← writeDate E.zone s.cache r.content r.len ts precise
        some ⟨some ⟨b, r.len + n⟩, c⟩
      else some s

/-- A sequence of primitive writes. -/
def execAll (E : Env) : Strm → List Prim → Option Strm
  | s, [] => some s
  | s, p :: ps => do
    let s ← exec E s p
    execAll E s ps

/-- Values that can be streamed. -/
inductive Val where
  /-- `const char*` (314-328); `none` = null pointer -/
  | cstr (s : Option (List Char))
  /-- `std::string` (419) -/
  | str (s : List Char)
  /-- `char` (340) -/
  | chr (c : Char)
  /-- `bool` (343) -/
  | bool (v : Bool)
  /-- `short`, `int`, `long`, `long long` (345-352) -/
  | int (n : Int)
  /-- `unsigned char` … `unsigned long long` (341, 346-354) -/
  | uns (n : Nat)
  /-- `write_number<Wide>` of a signed type (248-256) -/
  | intW (wide : Int) (n : Int)
  /-- `write_number<Wide>` of an unsigned type -/
  | unsW (wide : Int) (n : Nat)
  | dbl (d : Dbl)
  /-- `const void*` (329-333), `nullptr_t` (335-338), as an address -/
  | ptr (p : Nat)
  /-- `std::pair` (375-376) -/
  | pair (a b : Val)
  /-- containers (378-418); `name` is "vector:", "list:", … -/
  | container (name : List Char) (elems : List Val)
  | blank (n : Nat)
  | percent (d : Dbl)
  | stamp (ts : Int) (precise : Nat)
  /-- `write_binary(dst, len)` (267-312): address and bytes -/
  | binary (addr : Nat) (bytes : List Nat)

/-- The loop of `write_container` (385-398) over the already translated elements; `k` is
`input_count`. -/
def containerLoop : Nat → List (List Prim) → List Prim
  | _, [] => []
  | k, e :: es =>
    -- MAX_CONTAINER_DEPTH
    if k ≥ 5 then [.buf "..., ".toList]
    else (if k > 0 then [.buf ", ".toList] else []) ++ e ++ containerLoop (k + 1) es

/-- `isprint` in the C locale. -/
def isPrint (x : Nat) : Bool := 32 ≤ x && x < 127

/-- One round of the outer loop of `write_binary` (276-306): the bytes `[32 i, 32 (i + 1))`. -/
def binaryRow (addr i : Nat) (bytes : List Nat) : List Prim :=
  let row := (bytes.drop (i * 32)).take 32
  [.buf "\r\n\t[".toList, .ptr (addr + i * 32), .buf ": ".toList] ++
  row.flatMap (fun x => if isPrint x then [.buf [' '], .buf [Char.ofNat x], .buf [' ']]
    else [.buf " . ".toList]) ++
  [.buf "\r\n\t[".toList, .ptrIf8 (addr + i * 32), .buf ": ".toList, .hexRow row]

/-- `write_binary` (267-312). -/
def binaryPrims (addr : Nat) (bytes : List Nat) : List Prim :=
  [.buf "\r\n\t[".toList] ++
  (List.range (bytes.length / 32 + 1)).flatMap (fun i => binaryRow addr i bytes) ++
  [.buf "\r\n\t]\r\n\t".toList]

mutual
/-- The primitive writes of `operator<<`. -/
def Val.prims : Val → List Prim
  | .cstr none => [.buf "null".toList]
  | .cstr (some s) => [.buf s]
  | .str s => [.buf s]
  | .chr c => [.buf [c]]
  | .bool v => [.buf (if v then "true".toList else "false".toList)]
  | .int n => [.ll 0 n]
  | .uns n => [.ull 0 n]
  | .intW w n => [.ll w n]
  | .unsW w n => [.ull w n]
  | .dbl d => [.dbl d]
  | .ptr p => [.ptr p]
  | .pair a b => [.buf ['<']] ++ a.prims ++ [.buf [':']] ++ b.prims ++ [.buf ['>']]
  | .container name es =>
    [.buf name, .buf ['('], .ull 0 es.length, .buf ")[".toList] ++
      containerLoop 0 (Val.primsList es) ++ [.buf [']']]
  | .blank n => [.blank n]
  | .percent d => [.percent d]
  | .stamp t p => [.stamp t p]
  | .binary a bs => binaryPrims a bs
/-- The elements of a container. -/
def Val.primsList : List Val → List (List Prim)
  | [] => []
  | v :: vs => v.prims :: Val.primsList vs
end

/-- `stream << v1 << v2 << …`. -/
def streamAll (E : Env) (s : Strm) (vs : List Val) : Option Strm := execAll E s (vs.flatMap Val.prims)

/-! ## The constructor -/

/-- The loop of `short_path` (fn_file.h 402-412): `last` points behind position `i - 1`. -/
def shortPathLoop (path : List Char) : Nat → Nat → Nat
  | 0, _ => 0
  | i + 1, count =>
    if path[i]? = some '/' ∨ path[i]? = some '\\' then
      if count - 1 = 0 then i + 1 else shortPathLoop path i (count - 1)
    else shortPathLoop path i count

/-- `short_path` (fn_file.h 394-413). -/
def shortPath (path : List Char) : Nat := shortPathLoop path path.length 3

/-- The arguments that end up in the prefix. `none` = nullptr. -/
structure PrefixArgs where
  mask : Nat
  timestamp : Int
  precise : Nat
  priority : Int
  thread : Nat
  name : List Char
  desc : List Char
  file : Option (List Char)
  line : Int
  func : Option (List Char)

/-- `if (prefix & bit) { … }`. -/
def whenBit (mask bit : Nat) (s : Strm) (f : Strm → Option Strm) : Option Strm :=
  if mask &&& bit ≠ 0 then f s else some s

/-- Apply an unguarded write to the record of an open stream. -/
def onRec (f : Rec → Option Rec) (s : Strm) : Option Strm :=
  match s.data with
  | none => none
  | some r => (f r).map (fun r => { s with data := some r })

/-- Unguarded text. -/
def pushText (t : List Char) : Strm → Option Strm := onRec (fun r => r.pushUnsafe t)

/-- The timestamp field (119-122). -/
def prefixDate (E : Env) (a : PrefixArgs) (s : Strm) : Option Strm :=
  match s.data with
  | none => none
  | some r => do
    let (b, n, c) ← writeDate E.zone s.cache r.content r.len a.timestamp a.precise
    some ⟨some ⟨b, r.len + n⟩, c⟩

/-- The file field (143-158). -/
def prefixFile (E : Env) (a : PrefixArgs) (s : Strm) : Option Strm := do
  let s ← pushText ['['] s
  let s ← match a.file with
    | some f => if f.length > 0 then pushText (f.drop (shortPath f)) s else pushText "nofile".toList s
    | none => pushText "nofile".toList s
  let s ← pushText [':'] s
  let s ← exec E s (.ull 0 (toULL a.line))
  pushText [']'] s

/-- The function field (159-171). -/
def prefixFunc (a : PrefixArgs) (s : Strm) : Option Strm := do
  let s ← pushText ['('] s
  let s ← match a.func with
    | some f => if f.length > 0 then pushText f s else pushText "null".toList s
    | none => pushText "null".toList s
  pushText [')'] s

/-- The constructor from line 115 on, on a record that InitLogData (fn_channel.h 274-324) has emptied. -/
def ctorPrefix (E : Env) (a : PrefixArgs) (s : Strm) : Option Strm :=
  if a.mask = 0 then some s
  else do
    let s ← whenBit a.mask 0x1 s (prefixDate E a)
    let s ← whenBit a.mask 0x2 s (onRec (fun r => r.fmt (fun b d => writePriority b d a.priority)))
    let s ← whenBit a.mask 0x4 s (onRec (fun r => r.fmt (fun b d => writeThread b d a.thread)))
    let s ← whenBit a.mask 0x8 s (fun s => do
      let s ← pushText ['['] s; let s ← pushText a.name s; pushText [']'] s)
    let s ← whenBit a.mask 0x10 s (fun s => do
      let s ← pushText ['['] s; let s ← pushText a.desc s; pushText [']'] s)
    let s ← whenBit a.mask 0x20 s (prefixFile E a)
    let s ← whenBit a.mask 0x40 s (prefixFunc a)
    pushText [' '] s

/-- InitLogData (fn_channel.h 288-289, 321-322): `content_len_ = 0; content_[0] = '\0'`. -/
def initRec (content : List Char) : Option Rec := do
  let c ← writeAt content 0 ['\x00']
  some ⟨c, 0⟩

/-- The terminator written by PushChannel (fn_channel.h 495-497). -/
def sealRec (N : Nat) (r : Rec) : Option Rec := do
  let n := min r.len (N - 2)
  let c ← writeAt r.content n ['\n']
  let c ← writeAt c (n + 1) ['\x00']
  some ⟨c, n + 1⟩

/-- The body of `LOG_FORMAT` (fn_macro.h 216-219): `res` is the text that the format produces (`none` if
`snprintf` reports an error; the bytes behind `content_len_` are unspecified then, they keep their
value here).  `snprintf` writes at most `size - 1` bytes and a NUL. -/
def formatRec (N : Nat) (r : Rec) (res : Option (List Char)) : Option Rec := do
  let size := (N : Int) - r.len
  match res with
  | none => some r
  | some t =>
    let c ← if size > 0 then writeAt r.content r.len (t.take (size.toNat - 1) ++ ['\x00']) else some r.content
    let n : Int := if (t.length : Int) ≥ size then size - 1 else t.length
    some ⟨c, (r.len + n).toNat⟩

end FNLog
