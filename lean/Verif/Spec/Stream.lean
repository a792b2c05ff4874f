import Verif.Spec.Fmt
import Verif.Model.Stream

/-!
# What a log line should look like

The text of streamed values, independently of how and where it is stored.  `Val` (the argument type)
comes from the model; nothing else does.
-/

namespace FNLog.Spec

/-- Texts of doubles and dates (specified in Verif/Spec/Fmt.lean, C35 and C36). -/
structure Texts where
  dbl : Dbl → List Char
  date : Int → Nat → List Char

/-- A signed number with a minimal width, the sign counts as one column. -/
def signedWide (w : Int) (n : Int) : List Char :=
  if n < 0 then '-' :: padLeft (w - 1).toNat (numeral 10 (-n).toNat) else padLeft w.toNat (numeral 10 n.toNat)

/-- A pointer. -/
def pointer (p : Nat) : List Char := if p = 0 then "null".toList else "0x".toList ++ numeral 16 p

/-- A byte in a hex dump: two digits and a blank. -/
def hexByte (x : Nat) : List Char := padLeft 2 (numeral 16 x) ++ [' ']

/-- A byte in the character part of a dump. -/
def charByte (x : Nat) : List Char :=
  if 32 ≤ x ∧ x ≤ 126 then [' ', Char.ofNat x, ' '] else [' ', '.', ' ']

/-- One row of a dump: up to 32 bytes. -/
def dumpRow (addr : Nat) (row : List Nat) : List Char :=
  "\r\n\t[".toList ++ pointer addr ++ ": ".toList ++ row.flatMap charByte ++
  "\r\n\t[".toList ++ pointer addr ++ ": ".toList ++ row.flatMap hexByte

/-- All rows of a dump. A block of a multiple of 32 bytes ends with an empty row. -/
def dumpRows (addr : Nat) (bytes : List Nat) : List Char :=
  if 32 ≤ bytes.length then dumpRow addr (bytes.take 32) ++ dumpRows (addr + 32) (bytes.drop 32)
  else dumpRow addr bytes
termination_by bytes.length
decreasing_by simp only [List.length_drop]; omega

/-- A percentage, given as a fraction of one; anything below a millionth counts as zero. -/
def percentText (T : Texts) : Dbl → List Char
  | .nan => T.dbl .nan ++ ['%']
  | .inf neg => if neg then "00.00%".toList else T.dbl (.inf false) ++ ['%']
  | .fin neg m e => if neg ∨ below m e 6 then "00.00%".toList else T.dbl (.fin false (m * 100) e) ++ ['%']

/-- What a primitive write adds in column `col` if there is room. -/
def primText (T : Texts) (col : Nat) : Prim → List Char
  | .buf s => s
  | .ull w n => padLeft w.toNat (numeral 10 n)
  | .ll w n => signedWide w n
  | .ptr p => pointer p
  | .ptrIf8 p => pointer p
  | .hexRow bs => bs.flatMap hexByte
  | .dbl d => T.dbl d
  | .blank n => List.replicate (n - col) ' '
  | .percent d => percentText T d
  | .stamp t p => T.date t p

/-- What may be left of the text of a primitive write in a full record: everything or nothing; only plain
text may be cut anywhere, and a row of a dump may be cut between two bytes. -/
def Kept (T : Texts) (p : Prim) (t : List Char) : Prop :=
  t = [] ∨ (∃ col, t = primText T col p) ∨ (∃ s, p = .buf s ∧ t <+: s) ∨
    (∃ bs bs', p = .hexRow bs ∧ bs' <+: bs ∧ t = bs'.flatMap hexByte)

/-- What is printed between the brackets of a container. -/
def containerBody (texts : List (List Char)) : List Char :=
  List.intercalate ", ".toList (texts.take 5) ++ (if 5 < texts.length then "..., ".toList else [])

mutual
/-- The text of a value that starts in column `col`. -/
def Val.text (T : Texts) (col : Nat) : Val → List Char
  | .cstr none => "null".toList
  | .cstr (some s) => s
  | .str s => s
  | .chr c => [c]
  | .bool v => if v then "true".toList else "false".toList
  | .int n => decimal n
  | .uns n => numeral 10 n
  | .intW w n => signedWide w n
  | .unsW w n => padLeft w.toNat (numeral 10 n)
  | .dbl d => T.dbl d
  | .ptr p => pointer p
  | .pair a b =>
    let ta := Val.text T (col + 1) a
    ['<'] ++ ta ++ [':'] ++ Val.text T (col + 1 + ta.length + 1) b ++ ['>']
  | .container name es =>
    let head := name ++ ['('] ++ numeral 10 es.length ++ ")[".toList
    head ++ containerBody (Val.texts T (col + head.length) es) ++ [']']
  | .blank n => List.replicate (n - col) ' '
  | .percent d => percentText T d
  | .stamp t p => T.date t p
  | .binary a bs => "\r\n\t[".toList ++ dumpRows a bs ++ "\r\n\t]\r\n\t".toList
/-- The texts of values that are separated by two characters. -/
def Val.texts (T : Texts) (col : Nat) : List Val → List (List Char)
  | [] => []
  | v :: vs =>
    let t := Val.text T col v
    t :: Val.texts T (col + t.length + 2) vs
end

/-- The text of a sequence of values. -/
def lineText (T : Texts) (col : Nat) : List Val → List Char
  | [] => []
  | v :: vs =>
    let t := Val.text T col v
    t ++ lineText T (col + t.length) vs

/-- Number of path separators. -/
def separators (s : List Char) : Nat := s.countP (fun c => c = '/' ∨ c = '\\')

/-- The longest end of a path with at most two separators. -/
def ShortName (path s : List Char) : Prop :=
  s <:+ path ∧ separators s ≤ 2 ∧ ∀ s', s' <:+ path → separators s' ≤ 2 → s'.length ≤ s.length

/-- The text of the file field: the short name of the path, if there is one. -/
def FileField : Option (List Char) → List Char → Prop
  | none, t => t = "nofile".toList
  | some [], t => t = "nofile".toList
  | some (c :: cs), t => ShortName (c :: cs) t

/-- The text of the function field. -/
def funcField : Option (List Char) → List Char
  | none => "null".toList
  | some [] => "null".toList
  | some (c :: cs) => c :: cs

/-- The fields of a prefix in their order: selected or not, and the text. -/
def prefixText (fields : List (Bool × List Char)) : List Char :=
  (fields.flatMap fun f => if f.1 then f.2 else []) ++ [' ']

/-- `[text]` -/
def bracket (s : List Char) : List Char := ['['] ++ s ++ [']']

/-- The names of the priorities. -/
def priorityText : Nat → List Char
  | 0 => "TRACE".toList
  | 1 => "DEBUG".toList
  | 2 => "INFO ".toList
  | 3 => "WARN ".toList
  | 4 => "ERROR".toList
  | 5 => "ALARM".toList
  | _ => "FATAL".toList

/-- The local date and time of a timestamp. -/
def localCivil (z : Zone) (t : Int) : Civil :=
  ⟨((z.localtime t).year + 1900).toNat, ((z.localtime t).mon + 1).toNat, (z.localtime t).mday.toNat,
    (z.localtime t).hour.toNat, (z.localtime t).min.toNat, (z.localtime t).sec.toNat⟩

/-- The date text of a timestamp. -/
def localDate (z : Zone) (t : Int) (ms : Nat) : List Char := dateText (localCivil z t) ms

mutual
/-- `P` holds for a value and for everything inside of it. -/
def Val.All (P : Val → Prop) : Val → Prop
  | .pair a b => P (.pair a b) ∧ Val.All P a ∧ Val.All P b
  | .container n es => P (.container n es) ∧ Val.AllIn P es
  | v => P v
/-- For every element of a list. -/
def Val.AllIn (P : Val → Prop) : List Val → Prop
  | [] => True
  | v :: vs => Val.All P v ∧ Val.AllIn P vs
end

/-- Arguments for which printing is defined: numbers of their C++ types, but not `LLONG_MIN`; widths up
to 30; no zero byte in a dump.  Dates satisfy `S` and alignment columns satisfy `B`. -/
def Val.Fine (S : Int → Nat → Prop) (B : Nat → Prop) : Val → Prop
  | .int n => -(2 ^ 63) < n ∧ n < 2 ^ 63
  | .uns n => n < 2 ^ 64
  | .intW w n => w ≤ 30 ∧ -(2 ^ 63) < n ∧ n < 2 ^ 63
  | .unsW w n => w ≤ 30 ∧ n < 2 ^ 64
  | .dbl (.fin _ m _) => m < 2 ^ 53
  | .ptr p => p < 2 ^ 64
  | .container _ es => es.length < 2 ^ 64
  | .percent (.fin _ m _) => m < 2 ^ 24
  | .binary a bs => a + bs.length < 2 ^ 64 ∧ ∀ x ∈ bs, 0 < x ∧ x < 256
  | .stamp ts ms => S ts ms
  | .blank n => B n
  | _ => True

end FNLog.Spec
