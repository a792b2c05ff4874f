import Verif.Proof.Scan
import Verif.Proof.Filter
import Verif.Model.Parse

/-! # Property theorems C04, C41, C43, C63: values of the configuration file -/

namespace FNLog
open Spec

/-! ## C43 -/

/-- **C43.** A list of numbers and ranges below 64, with any blanks around the items, denotes exactly the
numbers it lists.  `tail` is the text behind the value; the value does not stop inside of a number. -/
theorem C43_bit_list (items : List BitItem) (v tail : List Char) (h : ListText items v)
    (hs : ∀ it ∈ items, it.Small) (ht : NoDigit tail) :
    ∃ m, parseBitArray v tail = some m ∧
      ∀ i, i < 64 → (m.getLsbD i = true ↔ ∃ it ∈ items, it.Has i) := by
  have ht' : HeadNot isNumber tail := noDigit_isNumber ht
  obtain ⟨m, e, hm⟩ := parseBitArray_list h hs ht' (v.length + 1) 0#64 (Nat.le_refl _)
  exact ⟨m, e, fun i hi => by rw [hm i hi]; simp⟩

/-- A number of 64 or more is undefined behaviour (the shift). -/
theorem C43_large_counterexample : parseBitArray "64".toList [] = none := by decide

/-- Separated by blanks only, just the first number of the list counts. -/
theorem C43_blanks_only : parseBitArray "1 2 3".toList [] = some 2#64 := by decide

example : ListText [.range 7 4, .one 1, .range 9 9] " 7 -4 ,1,09- 9".toList ∧
    parseBitArray " 7 -4 ,1,09- 9".toList "}".toList = some 0x2f2#64 := by
  refine ⟨?_, by decide⟩
  have hb : Blanks [' '] := by unfold Blanks; simp
  have h0 : Blanks [] := by unfold Blanks; simp
  refine ListText.cons (p := [' ']) (q := [' ']) (s := "7 -4".toList) hb hb ?_ ?_
  · exact BitItem.Text.range (s := ['7']) (p := [' ']) (q := []) (u := ['4']) ⟨0, by decide +kernel⟩ ⟨0, by decide +kernel⟩ hb h0
  · refine ListText.cons (p := []) (q := []) (s := ['1']) h0 h0 (.one ⟨0, by decide +kernel⟩) ?_
    refine ListText.last (p := []) (q := []) (s := "09- 9".toList) h0 h0 ?_
    exact BitItem.Text.range (s := "09".toList) (p := []) (q := [' ']) (u := ['9']) ⟨1, by decide +kernel⟩ ⟨0, by decide +kernel⟩ h0 hb

/-! ## C04 -/

theorem and_bit_zero (m : BitVec 64) {s : Nat} (h : s < 64) :
    (m &&& (1#64 <<< s) == 0#64) = !m.getLsbD s := by
  rw [Bool.eq_iff_iff]
  simp only [beq_iff_eq, Bool.not_eq_true']
  constructor
  · intro e
    have := congrArg (fun x => BitVec.getLsbD x s) e
    simp only [BitVec.getLsbD_and, bit_get h h, decide_true, Bool.and_true] at this
    simpa using this
  · intro e
    apply BitVec.eq_of_getLsbD_eq
    intro i hi
    rw [BitVec.getLsbD_and, bit_get h hi]
    by_cases hs : i = s
    · subst hs; rw [e]; simp
    · simp [hs]

theorem maskFails_maskLL (m : BitVec 64) {c : Nat} (h : c < 64) :
    maskFails (maskLL m) c = some (m != 0#64 && !m.getLsbD c) := by
  unfold maskFails maskLL
  simp only [BitVec.ofInt_toInt]
  have hs : shl1 (c : Int) = some (1#64 <<< c) := by
    unfold shl1
    have : ((c : Int) % 2 ^ 32).toNat = c := by omega
    simp only [this, if_pos h]
  by_cases h0 : m = 0#64
  · subst h0; rfl
  · have : (m != 0#64) = true := by simpa using h0
    rw [this, if_pos rfl, hs]
    simp only [Option.map_some, and_bit_zero m h, Bool.true_and]

theorem mask_zero_iff (m : BitVec 64) : m = 0#64 ↔ ∀ i, i < 64 → m.getLsbD i = false := by
  constructor
  · intro h i _; rw [h]; simp
  · intro h
    apply BitVec.eq_of_getLsbD_eq
    intro i hi
    rw [h i hi]; simp

/-- **C04**, the mask test of the filters (`BlockInput` and `DispatchLog` use the same one).  `white` says
whether the field was set by the `_wlist` or by the `_blist` line. -/
theorem C04_mask (items : List BitItem) (v tail : List Char) (h : ListText items v)
    (hs : ∀ it ∈ items, it.Small) (ht : NoDigit tail) (white : Bool) :
    ∃ m, parseBitArray v tail = some m ∧
      ∀ c, c < 64 →
        (maskFails (maskLL (if white then m else ~~~ m)) (c : Nat) = some false ↔
          if white then items = [] ∨ ∃ it ∈ items, it.Has c
          else (∀ i, i < 64 → ∃ it ∈ items, it.Has i) ∨ ¬ ∃ it ∈ items, it.Has c) := by
  obtain ⟨m, e, hm⟩ := C43_bit_list items v tail h hs ht
  refine ⟨m, e, fun c hc => ?_⟩
  cases white with
  | true =>
    simp only [if_true]
    rw [maskFails_maskLL m hc]
    simp only [Option.some.injEq, Bool.and_eq_false_iff, bne_eq_false_iff_eq, Bool.not_eq_false']
    rw [hm c hc, mask_zero_iff]
    constructor
    · rintro (h0 | h1)
      · left
        cases items with
        | nil => rfl
        | cons it its =>
          exfalso
          have hsm := hs it List.mem_cons_self
          cases it with
          | one n =>
            have := (hm n hsm).mpr ⟨_, List.mem_cons_self, rfl⟩
            rw [h0 n hsm] at this; exact Bool.noConfusion this
          | range a b =>
            have := (hm a hsm.1).mpr ⟨_, List.mem_cons_self, by unfold BitItem.Has; omega⟩
            rw [h0 a hsm.1] at this; exact Bool.noConfusion this
      · exact Or.inr h1
    · rintro (h0 | h1)
      · left
        intro i hi
        have := hm i hi
        rw [h0] at this
        simpa using this
      · exact Or.inr h1
  | false =>
    have hn : ∀ i, i < 64 → ((~~~ m).getLsbD i = true ↔ ¬ ∃ it ∈ items, it.Has i) := by
      intro i hi
      rw [BitVec.getLsbD_not, decide_eq_true hi, Bool.true_and, ← hm i hi]
      simp
    simp only [Bool.false_eq_true, if_false]
    rw [maskFails_maskLL _ hc]
    simp only [Option.some.injEq, Bool.and_eq_false_iff, bne_eq_false_iff_eq, Bool.not_eq_false']
    rw [hn c hc, mask_zero_iff]
    constructor
    · rintro (h0 | h1)
      · left
        intro i hi
        have := hn i hi
        rw [h0 i hi] at this
        simpa using this
      · exact Or.inr h1
    · rintro (h0 | h1)
      · left
        intro i hi
        have := hn i hi
        cases hx : (~~~ m).getLsbD i with
        | false => rfl
        | true => exact absurd (h0 i hi) (this.mp hx)
      · exact Or.inr h1

/-- **C04** for a device: a `category_wlist` line (read by `ParseDevice`) on a device without category
mask restricts the device to the listed categories (an empty list does not restrict anything). -/
theorem C04_device_white (dns : List Char → Option Int) (items : List BitItem) (v tail : List Char)
    (h : ListText items v) (hs : ∀ it ∈ items, it.Small) (ht : NoDigit tail) (d : Device)
    (hd : d.cfg.categoryMask = 0) :
    ∃ d', devField dns .categoryWlist v tail d = .ok d' ∧
      ∀ (p i : Int) (c : Nat), c < 64 →
        (dispatchTakes d' p c i = some true ↔
          dispatchTakes d p c i = some true ∧ (items = [] ∨ ∃ it ∈ items, it.Has c)) := by
  obtain ⟨m, e, hm⟩ := C04_mask items v tail h hs ht true
  refine ⟨_, by simp only [devField, e, PRes.ofOption, PRes.bind]; rfl, ?_⟩
  intro p i c hc
  have hmc := hm c hc
  simp only [if_true] at hmc
  have h0 : maskFails d.cfg.categoryMask (c : Int) = some false := by rw [hd]; rfl
  have hx : ∃ b, maskFails (maskLL m) (c : Int) = some b := ⟨_, maskFails_maskLL m hc⟩
  obtain ⟨b, hb⟩ := hx
  rw [hb] at hmc
  unfold dispatchTakes
  simp only [h0, hb]
  rw [← hmc]
  by_cases a1 : d.cfg.able = 0
  · simp [a1]
  · by_cases a2 : d.inType = .null
    · by_cases a3 : p < d.cfg.priority
      · simp [a3]
      · simp only [a1, a2, a3, if_false, not_true_eq_false, ne_eq]
        cases r1 : rangeFails d.cfg.category d.cfg.categoryExtend (c : Int) with
        | none => simp
        | some q1 =>
          cases q1
          · cases r2 : rangeFails d.cfg.identify d.cfg.identifyExtend i with
            | none => simp
            | some q2 =>
              cases q2
              · cases b
                · simp
                · simp
              · simp
          · simp
    · simp [a2]

/-- **C04** for a device: a `category_blist` line excludes the listed categories (a list of all 64 does not
restrict anything). -/
theorem C04_device_black (dns : List Char → Option Int) (items : List BitItem) (v tail : List Char)
    (h : ListText items v) (hs : ∀ it ∈ items, it.Small) (ht : NoDigit tail) (d : Device)
    (hd : d.cfg.categoryMask = 0) :
    ∃ d', devField dns .categoryBlist v tail d = .ok d' ∧
      ∀ (p i : Int) (c : Nat), c < 64 →
        (dispatchTakes d' p c i = some true ↔
          dispatchTakes d p c i = some true ∧
            ((∀ i, i < 64 → ∃ it ∈ items, it.Has i) ∨ ¬ ∃ it ∈ items, it.Has c)) := by
  obtain ⟨m, e, hm⟩ := C04_mask items v tail h hs ht false
  refine ⟨_, by simp only [devField, e, PRes.ofOption, PRes.bind]; rfl, ?_⟩
  intro p i c hc
  have hmc := hm c hc
  simp only [Bool.false_eq_true, if_false] at hmc
  have h0 : maskFails d.cfg.categoryMask (c : Int) = some false := by rw [hd]; rfl
  have hx : ∃ b, maskFails (maskLL (~~~ m)) (c : Int) = some b := ⟨_, maskFails_maskLL _ hc⟩
  obtain ⟨b, hb⟩ := hx
  rw [hb] at hmc
  unfold dispatchTakes
  simp only [h0, hb]
  rw [← hmc]
  by_cases a1 : d.cfg.able = 0
  · simp [a1]
  · by_cases a2 : d.inType = .null
    · by_cases a3 : p < d.cfg.priority
      · simp [a3]
      · simp only [a1, a2, a3, if_false, not_true_eq_false, ne_eq]
        cases r1 : rangeFails d.cfg.category d.cfg.categoryExtend (c : Int) with
        | none => simp
        | some q1 =>
          cases q1
          · cases r2 : rangeFails d.cfg.identify d.cfg.identifyExtend i with
            | none => simp
            | some q2 =>
              cases q2
              · cases b
                · simp
                · simp
              · simp
          · simp
    · simp [a2]

/-- **C04** for the other six lines: the mask they store is the one of `C04_mask`. -/
theorem C04_other_lines (dns : List Char → Option Int) (v tail : List Char) (m : BitVec 64)
    (h : parseBitArray v tail = some m) (d : Device) (c : Channel) :
    devField dns .categoryWlist v tail d = .ok { d with cfg.categoryMask := maskLL m } ∧
    devField dns .categoryBlist v tail d = .ok { d with cfg.categoryMask := maskLL (~~~ m) } ∧
    devField dns .identifyWlist v tail d = .ok { d with cfg.identifyMask := maskLL m } ∧
    devField dns .identifyBlist v tail d = .ok { d with cfg.identifyMask := maskLL (~~~ m) } ∧
    chanField .categoryWlist v tail c = .ok { c with cfg.categoryMask := maskLL m } ∧
    chanField .categoryBlist v tail c = .ok { c with cfg.categoryMask := maskLL (~~~ m) } ∧
    chanField .identifyWlist v tail c = .ok { c with cfg.identifyMask := maskLL m } ∧
    chanField .identifyBlist v tail c = .ok { c with cfg.identifyMask := maskLL (~~~ m) } := by
  simp only [devField, chanField, h, PRes.ofOption, PRes.bind, and_self]

example : let d : Device := { outType := .screen, cfg := { able := 1 } }
    d.cfg.categoryMask = 0 ∧ ∃ d', devField (fun _ => none) .categoryBlist "3-5".toList [] d = .ok d' ∧
      dispatchTakes d' 0 4 0 = some false ∧ dispatchTakes d' 0 6 0 = some true := by
  refine ⟨rfl, _, rfl, by decide, by decide⟩

/-! ## C41 -/

/-- **C41.** The keys of the manual. -/
theorem C41_documented_keys :
    parseReserve "hot_update".toList = some (some .hotUpdate) ∧
    parseReserve "shm_key".toList = some (some .shmKey) ∧
    parseReserve "logger_name".toList = some (some .loggerName) ∧
    parseReserve "logger_desc".toList = some (some .loggerDesc) ∧
    parseReserve "define".toList = some (some .define) ∧
    parseReserve "def".toList = some (some .define) ∧
    parseReserve "var".toList = some (some .variable) ∧
    parseReserve "channel".toList = some (some .channel) ∧
    parseReserve "sync".toList = some (some .sync) ∧
    parseReserve "sync_write".toList = some (some .sync) ∧
    parseReserve "priority".toList = some (some .priority) ∧
    parseReserve "category".toList = some (some .category) ∧
    parseReserve "category_extend".toList = some (some .categoryExtend) ∧
    parseReserve "category_wmask".toList = some (some .categoryWmask) ∧
    parseReserve "category_bmask".toList = some (some .categoryBmask) ∧
    parseReserve "category_wlist".toList = some (some .categoryWlist) ∧
    parseReserve "category_blist".toList = some (some .categoryBlist) ∧
    parseReserve "identify".toList = some (some .identify) ∧
    parseReserve "identify_extend".toList = some (some .identifyExtend) ∧
    parseReserve "identify_wmask".toList = some (some .identifyWmask) ∧
    parseReserve "identify_bmask".toList = some (some .identifyBmask) ∧
    parseReserve "identify_wlist".toList = some (some .identifyWlist) ∧
    parseReserve "identify_blist".toList = some (some .identifyBlist) ∧
    parseReserve "device".toList = some (some .device) ∧
    parseReserve "disable".toList = some (some .disable) ∧
    parseReserve "in_type".toList = some (some .inType) ∧
    parseReserve "out_type".toList = some (some .outType) ∧
    parseReserve "udp_addr".toList = some (some .udpAddr) ∧
    parseReserve "path".toList = some (some .path) ∧
    parseReserve "file".toList = some (some .file) ∧
    parseReserve "rollback".toList = some (some .rollback) ∧
    parseReserve "rolldaily".toList = some (some .rolldaily) ∧
    parseReserve "rollhourly".toList = some (some .rollhourly) ∧
    parseReserve "limit_size".toList = some (some .limitSize) ∧
    parseReserve "stuff_up".toList = some (some .stuffUp) := by
  repeat' apply And.intro
  all_goals decide +kernel

/-- **C41**, memory: for no key a character outside of it is read. -/
theorem C41_reads_inside (k : List Char) : parseReserve k ≠ none := by
  have hget : ∀ i, i < k.length → ∃ c, k[i]? = some c := fun i h => ⟨_, List.getElem?_eq_getElem h⟩
  have hext : ∀ a b c d e, k.length > 11 → parseReserveExt k a b c d e ≠ none := by
    intro a b c d e h
    obtain ⟨c9, h9⟩ := hget 9 (by omega)
    obtain ⟨c10, h10⟩ := hget 10 (by omega)
    unfold parseReserveExt
    rw [h9, h10]
    simp only [Option.bind_eq_bind, Option.bind_some]
    repeat' split
    all_goals simp
  unfold parseReserve
  split
  · exact nofun
  · rename_i h2
    obtain ⟨c0, h0⟩ := hget 0 (by omega)
    obtain ⟨c1, h1⟩ := hget 1 (by omega)
    rw [h0, h1]
    show reserveSwitch k c0 c1 ≠ none
    have hC : reserveC k c1 ≠ none := by
      unfold reserveC
      split
      · exact nofun
      · split
        · split
          · exact hext _ _ _ _ _ (by assumption)
          · exact nofun
        · exact nofun
    have hD : reserveD k c1 ≠ none := by
      unfold reserveD
      split
      · exact nofun
      · obtain ⟨c2, h2⟩ := hget 2 (by omega)
        rw [h2]; exact nofun
    have hI : reserveI k c1 ≠ none := by
      unfold reserveI
      split
      · exact nofun
      · split
        · exact hext _ _ _ _ _ (by assumption)
        · exact nofun
    have hL : reserveL k c1 ≠ none := by
      unfold reserveL
      split
      · exact nofun
      · split
        · obtain ⟨c7, h7⟩ := hget 7 (by omega)
          rw [h7]; exact nofun
        · exact nofun
    have hR : reserveR k ≠ none := by
      unfold reserveR
      split
      · obtain ⟨c4, h4⟩ := hget 4 (by omega)
        rw [h4]; exact nofun
      · exact nofun
    unfold reserveSwitch
    have step : ∀ (p : Prop) [Decidable p] (x y : KeyRes), x ≠ none → y ≠ none → (if p then x else y) ≠ none := by
      intro p _ x y hx hy; split
      · exact hx
      · exact hy
    have hs : ∀ x : Option Key, (some x : KeyRes) ≠ none := fun x => Option.some_ne_none x
    exact step _ _ _ hC (step _ _ _ hD (step _ _ _ (hs _) (step _ _ _ (hs _) (step _ _ _ hI (step _ _ _ hL
      (step _ _ _ (hs _) (step _ _ _ hR (step _ _ _ (hs _) (step _ _ _ (hs _) (step _ _ _ (hs _)
      (step _ _ _ (hs _) (hs _))))))))))))

/-- Only a few characters decide: a misspelt key is taken for another one instead of being refused. -/
theorem C41_misspelt : parseReserve "fle".toList = some (some .file) ∧
    parseReserve "rotate".toList = some none ∧ parseReserve "prefix".toList = some (some .priority) ∧
    parseReserve "size".toList = some (some .shmKey) ∧ parseReserve "identfy_wlist".toList = some none := by decide +kernel

/-! ## C63 -/

/-- **C63.** For all addresses and ports. -/
theorem C63_udp_address (dns : List Char → Option Int) (parseDn : Bool) (a b c d port : Nat)
    (ha : a < 256) (hb : b < 256) (hc : c < 256) (hd : d < 256) (hp : 0 < port) (hp' : port < 65536) :
    parseAddres dns parseDn (quadText a b c d ++ [':'] ++ numeral 10 port) =
      (((networkQuad a b c d : Nat) : Int), ((networkPort port : Nat) : Int)) :=
  parseAddres_quad dns parseDn ha hb hc hd hp hp'

/-- **C63**, on the device: the line is accepted (an address other than 0.0.0.0), with exactly these
fields set. -/
theorem C63_device (dns : List Char → Option Int) (a b c d port : Nat) (tail : List Char)
    (ha : a < 256) (hb : b < 256) (hc : c < 256) (hd : d < 256) (hp : 0 < port) (hp' : port < 65536)
    (h0 : a ≠ 0 ∨ b ≠ 0 ∨ c ≠ 0 ∨ d ≠ 0) (dev : Device) :
    devField dns .udpAddr (quadText a b c d ++ [':'] ++ numeral 10 port) tail dev =
      .ok { dev with cfg.udpIp := networkQuad a b c d, cfg.udpPort := networkPort port } := by
  have h1 : networkQuad a b c d ≠ 0 := by unfold networkQuad; omega
  have h2 : networkPort port ≠ 0 := by unfold networkPort; omega
  simp only [devField]
  rw [parseAddres_quad dns _ ha hb hc hd hp hp']
  by_cases e : dev.cfg.able = 0
  · simp [e]
  · simp [e, h1, h2]

/-- 127.0.0.1:8080 -/
example : parseAddres (fun _ => none) true "127.0.0.1:8080".toList = (0x0100007F, 0x901F) := by decide +kernel

/-- The notation of the manual (`127.0.0.1_8080`) is taken for a host name; if there is no such host the
device is refused. -/
theorem C63_manual_notation : devField (fun _ => none) .udpAddr "127.0.0.1_8080".toList []
    { cfg := { able := 1 } } = .err .illegalAddrIp := by decide +kernel

/-- A last part written with a leading zero is octal, as for `inet_addr`; a wrong address is
255.255.255.255. -/
theorem C63_octal : (parseAddres (fun _ => none) true "10.0.0.010:80".toList).1 = networkQuad 10 0 0 8 ∧
    (parseAddres (fun _ => none) true "10.0.0.300:80".toList).1 = networkQuad 255 255 255 255 := by decide +kernel

theorem splitDots_more {a : Nat} {r : List Char} : splitDots (numeral 10 a ++ ['.'] ++ r) = numeral 10 a :: splitDots r :=
  splitDots_dot fun c hc => (number_not_dot (numeral_isNumber a c hc)).1

theorem splitDots_one {a : Nat} : splitDots (numeral 10 a) = [numeral 10 a] :=
  splitDots_plain fun c hc => (number_not_dot (numeral_isNumber a c hc)).1

/-- The shorter notations of an address: the last number stands for all the bytes that are left, and must not be too large. -/
theorem C63_short (a b c : Nat) :
    inetAddr (numeral 10 a) = (if a < 2 ^ 32 then networkQuad (a / 2 ^ 24) (a / 2 ^ 16 % 256) (a / 2 ^ 8 % 256) (a % 256)
      else networkQuad 255 255 255 255) ∧
    inetAddr (numeral 10 a ++ ['.'] ++ numeral 10 b) = (if a < 256 ∧ b < 2 ^ 24 then
      networkQuad a (b / 2 ^ 16) (b / 2 ^ 8 % 256) (b % 256) else networkQuad 255 255 255 255) ∧
    inetAddr (numeral 10 a ++ ['.'] ++ (numeral 10 b ++ ['.'] ++ numeral 10 c)) = (if a < 256 ∧ b < 256 ∧ c < 2 ^ 16 then
      networkQuad a b (c / 2 ^ 8) (c % 256) else networkQuad 255 255 255 255) := by
  have hn : INADDR_NONE = networkQuad 255 255 255 255 := by decide +kernel
  refine ⟨?_, ?_, ?_⟩ <;> unfold inetAddr
  · rw [splitDots_one]
    simp only [List.mapM_cons, List.mapM_nil, inetPart_numeral, Option.pure_def, Option.bind_eq_bind, Option.bind_some]
    rw [hn]
    split
    · unfold networkQuad; omega
    · rfl
  · rw [splitDots_more, splitDots_one]
    simp only [List.mapM_cons, List.mapM_nil, inetPart_numeral, Option.pure_def, Option.bind_eq_bind, Option.bind_some]
    rw [hn]
    split
    · unfold networkQuad; omega
    · rfl
  · rw [splitDots_more, splitDots_more, splitDots_one]
    simp only [List.mapM_cons, List.mapM_nil, inetPart_numeral, Option.pure_def, Option.bind_eq_bind, Option.bind_some]
    rw [hn]
    split
    · unfold networkQuad; omega
    · rfl

/-- 127.1 and 10.1.256 -/
example : inetAddr "127.1".toList = networkQuad 127 0 0 1 ∧ inetAddr "10.1.256".toList = networkQuad 10 1 1 0 := by decide +kernel

end FNLog
