import Verif.Model.Types
import Verif.Spec.Fmt

/-!
# What values of the configuration file mean

Written from the manual (README.md), without reference to the parser.
-/

namespace FNLog.Spec

/-- Blanks inside of a line. -/
def Blanks (s : List Char) : Prop := ∀ c ∈ s, c = ' ' ∨ c = '\t' ∨ c = '\x0b' ∨ c = '\x0c'

/-- A decimal notation of `n`, leading zeros allowed. -/
def DecText (n : Nat) (s : List Char) : Prop := ∃ z, s = List.replicate z '0' ++ numeral 10 n

/-- `s` does not go on with a digit. -/
def NoDigit (s : List Char) : Prop := ∀ c r, s = c :: r → c ∉ "0123456789".toList

/-! ## Lists of numbers -/

/-- An item of a white or black list. -/
inductive BitItem where
  | one (n : Nat)
  | range (a b : Nat)

/-- The numbers that an item denotes. -/
def BitItem.Has (i : Nat) : BitItem → Prop
  | .one n => i = n
  | .range a b => (a ≤ i ∧ i ≤ b) ∨ (b ≤ i ∧ i ≤ a)

/-- All numbers of the item are below 64. -/
def BitItem.Small : BitItem → Prop
  | .one n => n < 64
  | .range a b => a < 64 ∧ b < 64

/-- The notations of an item. -/
inductive BitItem.Text : BitItem → List Char → Prop where
  | one {n s} : DecText n s → BitItem.Text (.one n) s
  | range {a b s u p q} : DecText a s → DecText b u → Blanks p → Blanks q →
      BitItem.Text (.range a b) (s ++ p ++ ['-'] ++ q ++ u)

/-- The notations of a list: items separated by commas, blanks around items. -/
inductive ListText : List BitItem → List Char → Prop where
  | nil {s} : Blanks s → ListText [] s
  | last {i s p q} : Blanks p → Blanks q → BitItem.Text i s → ListText [i] (p ++ s ++ q)
  | cons {i is s p q r} : Blanks p → Blanks q → BitItem.Text i s → ListText is r →
      ListText (i :: is) (p ++ s ++ q ++ [','] ++ r)

/-! ## Addresses -/

/-- `a.b.c.d` without leading zeros. -/
def quadText (a b c d : Nat) : List Char :=
  numeral 10 a ++ ['.'] ++ numeral 10 b ++ ['.'] ++ numeral 10 c ++ ['.'] ++ numeral 10 d

/-- An IPv4 address in network byte order, read as a number on a little-endian machine. -/
def networkQuad (a b c d : Nat) : Nat := a + 256 * (b + 256 * (c + 256 * d))

/-- A port in network byte order, read as a number on a little-endian machine. -/
def networkPort (p : Nat) : Nat := p / 256 + 256 * (p % 256)

/-! ## Lines -/

/-- The lines of a text; carriage return and line feed both end a line. -/
def textLines : List Char → List (List Char)
  | [] => [[]]
  | c :: cs =>
    if c = '\r' ∨ c = '\n' then [] :: textLines cs
    else match textLines cs with
      | [] => [[c]]
      | l :: ls => (c :: l) :: ls

/-- A line without its comment. -/
def stripComment (l : List Char) : List Char := l.takeWhile (· != '#')

/-- Only blanks. -/
def blankLine (l : List Char) : Bool := l.all fun c => c == ' ' || c == '\t' || c == '\x0b' || c == '\x0c'

/-- The lines that matter: comments cut off, empty ones left out. -/
def significant (t : List Char) : List (List Char) := ((textLines t).map stripComment).filter (!blankLine ·)

/-- Every line feed becomes carriage return and line feed. -/
def crlf (t : List Char) : List Char := t.flatMap fun c => if c = '\n' then ['\r', '\n'] else [c]

/-! ## Names -/

/-- Letters, digits and the underscore. -/
def nameChar (c : Char) : Bool := c.isAlphanum || c == '_'

/-- A name begins with a letter or the underscore. -/
def nameStart (c : Char) : Bool := c.isAlpha || c == '_'

/-- The text cut into names (as long as possible) and single other characters. -/
def words : List Char → List (List Char)
  | [] => []
  | c :: cs =>
    match words cs with
    | (d :: w) :: ws => if nameChar c && nameChar d then (c :: d :: w) :: ws else [c] :: (d :: w) :: ws
    | ws => [c] :: ws

/-- Replace the name `key` by `val`. -/
def replaceName (key val t : List Char) : List Char :=
  ((words t).map fun w => if w = key then val else w).flatten

/-- Replace occurrences of `key` from left to right; if `whole`, only those that do not go on with a name
character.  At most `n` steps. -/
def replaceOcc (key val : List Char) (whole : Bool) : Nat → List Char → List Char
  | 0, t => t
  | _ + 1, [] => []
  | n + 1, c :: cs =>
    if key <+: c :: cs ∧ ¬ (whole = true ∧ ∃ x ∈ (c :: cs)[key.length]?, nameChar x = true)
    then val ++ replaceOcc key val whole n ((c :: cs).drop key.length)
    else c :: replaceOcc key val whole n cs

/-! ## Well-formed configurations -/

/-- A configured device at place `i` of its channel. -/
structure GoodDevice (i : Nat) (d : Device) : Prop where
  id : d.id = i
  file : d.file.length + 1 < 50
  path : d.path.length + 1 < 200
  priority : 0 ≤ d.cfg.priority ∧ d.cfg.priority ≤ 6
  able : d.cfg.able = 0 ∨ d.cfg.able = 1
  rolldaily : d.cfg.rolldaily = 0 ∨ d.cfg.rolldaily = 1
  rollhourly : d.cfg.rollhourly = 0 ∨ d.cfg.rollhourly = 1
  stuffUp : d.cfg.stuffUp = 0 ∨ d.cfg.stuffUp = 1
  limitSize : -(2 ^ 63) ≤ d.cfg.limitSize ∧ d.cfg.limitSize < 2 ^ 63

/-- A configured channel at place `i`. -/
structure GoodChannel (i : Nat) (c : Channel) : Prop where
  id : c.id = i
  count : c.devices.length ≤ 20
  devices : ∀ j d, c.devices[j]? = some d → GoodDevice j d
  priority : 0 ≤ c.cfg.priority ∧ c.cfg.priority ≤ 6
  state : c.state = .null
  virtual : c.virtualDeviceId = 0 ∨ ∃ d ∈ c.devices, d.id = c.virtualDeviceId ∧ d.outType = .virtual

end FNLog.Spec
