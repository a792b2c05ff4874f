import Verif.Props.Numbers
import Verif.Props.Filter

/-!
# C103: large numbers in filters

The numbers of a filter (`category`, `category_extend`, `identify`, `identify_extend`) are `long long` everywhere in the logger; a
device reads them with `atoll` (fn_parse.h 1188-1209), a channel with `atoi` (1327-1348).
-/

namespace FNLog
open Spec

namespace Spec

/-- `v` begins with the integer `z`: a sign, decimal digits, and then something else. -/
inductive IntText (z : Int) (v : List Char) : Prop where
  | plain {n : Nat} {s r : List Char} : DecText n s → NoDigit r → z = n → v = s ++ r → IntText z v
  | plus {n : Nat} {s r : List Char} : DecText n s → NoDigit r → z = n → v = '+' :: (s ++ r) → IntText z v
  | minus {n : Nat} {s r : List Char} : DecText n s → NoDigit r → z = -n → v = '-' :: (s ++ r) → IntText z v

/-- The nearest `long long`. -/
def nearest (z : Int) : Int := if z < -2 ^ 63 then -2 ^ 63 else if 2 ^ 63 ≤ z then 2 ^ 63 - 1 else z

end Spec

theorem saturate_nearest (z : Int) : saturate z = nearest z := by
  unfold saturate nearest LLONG_MIN LLONG_MAX
  split
  · omega
  · split <;> omega

theorem atoll_int {z : Int} {v : List Char} (h : IntText z v) : atoll v = nearest z := by
  rw [← saturate_nearest]
  cases h with
  | plain hs hr hz hv =>
    rename_i n s r
    subst hv hz
    have e := decPrefix_text hs hr
    have hne := decText_ne_nil hs
    cases hs' : s with
    | nil => exact absurd hs' hne
    | cons c s' =>
      have hc := isNumber_not_space (decText_number hs c (by rw [hs']; exact List.mem_cons_self))
      rw [hs'] at e
      unfold atoll
      rw [List.cons_append, List.dropWhile_cons, hc.1]
      simp only [Bool.false_eq_true, if_false]
      split
      · rename_i heq; simp only [List.cons.injEq] at heq; exact absurd heq.1 hc.2.1
      · rename_i heq; simp only [List.cons.injEq] at heq; exact absurd heq.1 hc.2.2.1
      · rw [List.cons_append] at e
        rw [e]
  | plus hs hr hz hv =>
    subst hv hz
    unfold atoll
    rw [List.dropWhile_cons, show isSpace '+' = false from rfl]
    simp only [Bool.false_eq_true, if_false]
    rw [decPrefix_text hs hr]
  | minus hs hr hz hv =>
    subst hv hz
    unfold atoll
    rw [List.dropWhile_cons, show isSpace '-' = false from rfl]
    simp only [Bool.false_eq_true, if_false]
    rw [decPrefix_text hs hr]

/-- **C103** at a device: every number is read as it is, or as the nearest number of 64 bits. -/
theorem C103_device {z : Int} {v tail : List Char} (h : IntText z (v ++ tail)) (dns : List Char → Option Int) (d : Device) :
    devField dns .category v tail d = .ok { d with cfg.category := nearest z } ∧
    devField dns .categoryExtend v tail d = .ok { d with cfg.categoryExtend := nearest z } ∧
    devField dns .identify v tail d = .ok { d with cfg.identify := nearest z } ∧
    devField dns .identifyExtend v tail d = .ok { d with cfg.identifyExtend := nearest z } ∧
    devField dns .rollback v tail d = .ok { d with cfg.rollback := nearest z } := by
  simp only [devField, atoll_int h, and_self]

/-- **C103** at a channel: the number that is read differs by a multiple of 2^32, and has 32 bits. -/
theorem C103_channel {z : Int} {v tail : List Char} (h : IntText z (v ++ tail)) (c : Channel) :
    ∃ m k : Int, -2 ^ 31 ≤ m ∧ m < 2 ^ 31 ∧ nearest z = m + 2 ^ 32 * k ∧
    chanField .category v tail c = .ok { c with cfg.category := m } ∧
    chanField .categoryExtend v tail c = .ok { c with cfg.categoryExtend := m } ∧
    chanField .identify v tail c = .ok { c with cfg.identify := m } ∧
    chanField .identifyExtend v tail c = .ok { c with cfg.identifyExtend := m } := by
  refine ⟨toInt32 (nearest z), (nearest z + 2 ^ 31) / 2 ^ 32, ?_, ?_, ?_, ?_⟩
  · unfold toInt32; omega
  · unfold toInt32; omega
  · unfold toInt32; omega
  · simp only [chanField, atoi, atoll_int h, and_self]

/-- **C103**, partial: a number of 32 bits means the same at a channel and at a device.  Missing: larger numbers, see
`C103_truncated_counterexample`. -/
theorem C103_same_partial {z : Int} (hz : -2 ^ 31 ≤ z ∧ z < 2 ^ 31) {v tail : List Char} (h : IntText z (v ++ tail))
    (dns : List Char → Option Int) (d : Device) (c : Channel) :
    devField dns .identify v tail d = .ok { d with cfg.identify := z } ∧
    chanField .identify v tail c = .ok { c with cfg.identify := z } ∧
    devField dns .category v tail d = .ok { d with cfg.category := z } ∧
    chanField .category v tail c = .ok { c with cfg.category := z } := by
  have hn : nearest z = z := by unfold nearest; rw [if_neg (by omega), if_neg (by omega)]
  obtain ⟨m, k, h1, h2, h3, h4, _, h6, _⟩ := C103_channel h c
  obtain ⟨d1, _, d3, _⟩ := C103_device h dns d
  rw [hn] at h3 d1 d3
  have : m = z := by omega
  subst this
  exact ⟨d3, h6, d1, h4⟩

/-- The same filter on the channel, with a device that takes everything. -/
def wideChannelText : List Char :=
  "- channel: 0\n    sync: true\n    identify: 4294967301\n    identify_extend: 10\n    - device: 0\n        disable: false\n        out_type: \"screen\"\n".toList

/-- The same filter on the device, with a channel that takes everything. -/
def wideDeviceText : List Char :=
  "- channel: 0\n    sync: true\n    - device: 0\n        disable: false\n        out_type: \"screen\"\n        identify: 4294967301\n        identify_extend: 10\n".toList

/-- What a running logger with a configuration does with an identify. -/
def wideTakes (t : List Char) (identify : Int) : Option (Option Bool) :=
  match parseLogger (fun _ => none) 0 400 t with
  | .ok g => some ((blockInput ⟨.running, some (g.channels.map fun c => { c with state := .running })⟩ 0 3 0 identify).map (!·))
  | _ => none

/-- **C103** fails for numbers of more than 32 bits: `identify: 4294967301` on a channel is read as 5.  On a device the filter takes
4294967303 and refuses 7; on the channel it is the other way round. -/
theorem C103_truncated_counterexample :
    wideTakes wideDeviceText 4294967303 = some (some true) ∧ wideTakes wideDeviceText 7 = some (some false) ∧
    wideTakes wideChannelText 4294967303 = some (some false) ∧ wideTakes wideChannelText 7 = some (some true) :=
  ⟨by kernel_rfl, by kernel_rfl, by kernel_rfl, by kernel_rfl⟩

/-- A channel with the number 2^32 is accepted as channel 0. -/
theorem C103_channel_number_counterexample : ∃ g, parseLogger (fun _ => none) 0 40 "- channel: 4294967296\n".toList = .ok g ∧
    g.channels.map (·.id) = [0] := ⟨{ channels := [{}] }, by kernel_rfl, by kernel_rfl⟩

/-- The hypotheses can be met. -/
example : IntText 4294967301 ("4294967301".toList ++ "\nx".toList) ∧ IntText (-12) ("-012".toList ++ []) ∧
    IntText 99999999999999999999 ("+99999999999999999999".toList ++ [' ']) := by
  refine ⟨.plain (n := 4294967301) (s := "4294967301".toList) (r := "\nx".toList) ⟨0, by simp [numeral, digit, digits]⟩ ?_ rfl rfl,
    .minus (n := 12) (s := "012".toList) (r := []) ⟨1, by simp [numeral, digit, digits]⟩ noDigit_nil rfl rfl,
    .plus (n := 99999999999999999999) (s := "99999999999999999999".toList) (r := [' ']) ⟨0, by simp [numeral, digit, digits]⟩ ?_ rfl rfl⟩
  all_goals
    intro c r h
    cases h
    decide

end FNLog
