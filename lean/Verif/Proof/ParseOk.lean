import Verif.Proof.ParseSame

/-! # Invariants of accepted configurations; replacement of names; the key of the shared memory -/

namespace FNLog
open Spec

theorem boolLL_01 (b : Bool) : boolLL b = 0 ∨ boolLL b = 1 := by cases b <;> decide

theorem parsePriority_range (v : List Char) : 0 ≤ parsePriority v ∧ parsePriority v ≤ 6 := by
  unfold parsePriority
  split
  · decide
  · repeat' split
    all_goals decide

theorem mulLL_range {a b n : Int} (h : mulLL a b = some n) : -(2 ^ 63) ≤ n ∧ n < 2 ^ 63 := by
  unfold mulLL at h
  split at h
  · rename_i hr
    rw [← Option.some.inj h]
    unfold LLONG_MIN LLONG_MAX at hr
    omega
  · exact absurd h (by nofun)

theorem ofOption_ok {α : Type} {o : Option α} {a : α} (h : PRes.ofOption o = .ok a) : o = some a := by
  cases o with
  | none => exact absurd h (by nofun)
  | some b => rw [PRes.ok.inj h]

theorem goodDevice_field {dns : List Char → Option Int} (i : Nat) (k : Key) (v tail : List Char) (d d' : Device)
    (hd : GoodDevice i d) (h : devField dns k v tail d = .ok d') : GoodDevice i d' := by
  unfold devField at h
  cases k <;> simp only at h
  case outType =>
    split at h
    · exact absurd h (by nofun)
    · rw [← PRes.ok.inj h]; exact { hd with }
  case disable => rw [← PRes.ok.inj h]; exact { hd with able := boolLL_01 _ }
  case priority => rw [← PRes.ok.inj h]; exact { hd with priority := parsePriority_range _ }
  case rolldaily => rw [← PRes.ok.inj h]; exact { hd with rolldaily := boolLL_01 _ }
  case rollhourly => rw [← PRes.ok.inj h]; exact { hd with rollhourly := boolLL_01 _ }
  case stuffUp => rw [← PRes.ok.inj h]; exact { hd with stuffUp := boolLL_01 _ }
  case limitSize =>
    obtain ⟨n, h1, h2⟩ := PRes.bind_ok h
    have h1 := ofOption_ok h1
    obtain ⟨a, _, h3⟩ := Option.bind_eq_some_iff.mp h1
    rw [← PRes.ok.inj h2]
    exact { hd with limitSize := mulLL_range h3 }
  case path =>
    rw [← PRes.ok.inj h]
    split
    · rename_i hl
      refine { hd with path := ?_ }
      have h1 := hl.1
      unfold DEV_PATH_LEN at h1
      show v.length + 1 < 200
      omega
    · exact hd
  case file =>
    rw [← PRes.ok.inj h]
    split
    · rename_i hl
      refine { hd with file := ?_ }
      have h1 := hl.1
      unfold DEV_FILE_LEN at h1
      show v.length + 1 < 50
      omega
    · exact hd
  case udpAddr =>
    split at h
    · split at h
      · exact absurd h (by nofun)
      · split at h
        · exact absurd h (by nofun)
        · rw [← PRes.ok.inj h]; exact { hd with }
    · rw [← PRes.ok.inj h]; exact { hd with }
  all_goals first
    | (rw [← PRes.ok.inj h]; exact { hd with })
    | (obtain ⟨n, _, h2⟩ := PRes.bind_ok h; rw [← PRes.ok.inj h2]; exact { hd with })
    | exact absurd h (by nofun)

theorem goodDevice_init (i : Nat) : GoodDevice i { id := i } := by
  constructor <;> simp

/-- The identifier is kept by the lines of a device. -/
theorem goodChannel_field (i : Nat) (k : Key) (v tail : List Char) (c c' : Channel)
    (hc : GoodChannel i c) (h : chanField k v tail c = .ok c') : GoodChannel i c' := by
  unfold chanField at h
  cases k <;> simp only at h
  case priority => rw [← PRes.ok.inj h]; exact { hc with priority := parsePriority_range _ }
  all_goals first
    | (rw [← PRes.ok.inj h]; exact { hc with })
    | (obtain ⟨n, _, h2⟩ := PRes.bind_ok h; rw [← PRes.ok.inj h2]; exact { hc with })
    | exact absurd h (by nofun)

theorem goodChannel_init (i : Nat) : GoodChannel i { id := i } := by
  constructor <;> simp

theorem goodChannel_add (i : Nat) (c : Channel) (d : Device) (hc : GoodChannel i c)
    (hl : c.devices.length < MAX_DEVICE_SIZE) (hd : GoodDevice c.devices.length d) : GoodChannel i (addDevice c d) := by
  refine { id := hc.id, count := ?_, devices := ?_, priority := hc.priority, state := hc.state, virtual := ?_ }
  · unfold addDevice MAX_DEVICE_SIZE at *
    simp only [List.length_append, List.length_singleton]; omega
  · intro j d' h
    unfold addDevice at h
    simp only [List.getElem?_append] at h
    split at h
    · exact hc.devices j d' h
    · rename_i hj
      cases hj' : j - c.devices.length with
      | zero =>
        rw [hj'] at h
        have : j = c.devices.length := by omega
        rw [this, ← Option.some.inj h]
        exact hd
      | succ n => rw [hj'] at h; exact absurd h (by simp)
  · unfold addDevice
    simp only
    split
    · rename_i hv
      exact Or.inr ⟨d, by simp, rfl, hv⟩
    · rcases hc.virtual with h | ⟨x, hx, h1, h2⟩
      · exact Or.inl h
      · exact Or.inr ⟨x, by simp [hx], h1, h2⟩

/-! ## Replacement of names -/

theorem nameChar_eq (c : Char) : nameChar c = isValidName c := by
  unfold nameChar isValidName Char.isAlphanum Char.isAlpha Char.isUpper Char.isLower Char.isDigit
  rw [Bool.eq_iff_iff]
  simp only [Bool.or_eq_true, Bool.and_eq_true, decide_eq_true_eq, beq_iff_eq]
  have e : ∀ a b : Char, a ≤ b ↔ a.val ≤ b.val := fun _ _ => Iff.rfl
  simp only [e]
  constructor
  · rintro (((h | h) | h) | h)
    · exact Or.inl (Or.inl (Or.inr h))
    · exact Or.inl (Or.inl (Or.inl h))
    · exact Or.inl (Or.inr h)
    · exact Or.inr h
  · rintro (((h | h) | h) | h)
    · exact Or.inl (Or.inl (Or.inr h))
    · exact Or.inl (Or.inl (Or.inl h))
    · exact Or.inl (Or.inr h)
    · exact Or.inr h

theorem nameStart_eq (c : Char) : nameStart c = isValidNameFirst c := by
  unfold nameStart isValidNameFirst Char.isAlpha Char.isUpper Char.isLower
  rw [Bool.eq_iff_iff]
  simp only [Bool.or_eq_true, Bool.and_eq_true, decide_eq_true_eq, beq_iff_eq]
  have e : ∀ a b : Char, a ≤ b ↔ a.val ≤ b.val := fun _ _ => Iff.rfl
  simp only [e]
  constructor
  · rintro ((h | h) | h)
    · exact Or.inl (Or.inr h)
    · exact Or.inl (Or.inl h)
    · exact Or.inr h
  · rintro ((h | h) | h)
    · exact Or.inl (Or.inr h)
    · exact Or.inl (Or.inl h)
    · exact Or.inr h

theorem words_name {w : List Char} (hw : w ≠ []) (h : ∀ c ∈ w, nameChar c = true) : words w = [w] := by
  induction w with
  | nil => exact absurd rfl hw
  | cons c w ih =>
    cases w with
    | nil => rfl
    | cons d w =>
      rw [words, ih nofun (fun x hx => h x (List.mem_cons_of_mem _ hx))]
      simp only
      rw [h c List.mem_cons_self, h d (by simp)]
      rfl

theorem words_other {s : Char} (hs : nameChar s = false) (b : List Char) : words (s :: b) = [s] :: words b := by
  rw [words]
  split
  · rename_i d w ws hb
    rw [hs, hb]; simp
  · rfl

theorem words_split {s : Char} (hs : nameChar s = false) (b : List Char) : ∀ (w : List Char), w ≠ [] →
    (∀ c ∈ w, nameChar c = true) → words (w ++ s :: b) = w :: [s] :: words b := by
  intro w
  induction w with
  | nil => intro h; exact absurd rfl h
  | cons c w ih =>
    intro _ h
    cases w with
    | nil =>
      rw [List.cons_append, List.nil_append, words, words_other hs]
      simp only
      rw [hs]; simp
    | cons d w =>
      rw [List.cons_append, words, ih nofun (fun x hx => h x (List.mem_cons_of_mem _ hx))]
      simp only
      rw [h c List.mem_cons_self, h d (by simp)]
      rfl

theorem rep_inside {key val : List Char} {suf : Bool} : ∀ (w : List Char), (∀ c ∈ w, isValidName c = true) →
    rep key val true suf true w = w := by
  intro w
  induction w with
  | nil => intro _; rfl
  | cons c w ih =>
    intro h
    rw [rep_no (by unfold hit; simp), h c List.mem_cons_self, ih (fun x hx => h x (List.mem_cons_of_mem _ hx))]

/-- A whole name. -/
theorem rep_word {key val : List Char} (hk : key ≠ []) (hl : val.length = key.length) (hne : val ≠ key) (w : List Char)
    (h : ∀ c ∈ w, isValidName c = true) : rep key val true true false w = if w = key then val else w := by
  cases w with
  | nil =>
    split
    · rename_i e; exact absurd e.symm hk
    · rfl
  | cons c w =>
    by_cases he : c :: w = key
    · rw [if_pos he, he]
      have hh : hit key true true false key = true := by
        unfold hit
        have : key.isPrefixOf key = true := isPrefixOf_iff.mpr ⟨[], by simp⟩
        rw [this]; simp [nameAt]
      rw [rep_yes hl hne hh]
      have hz : key.drop key.length = [] := by simp
      rw [hz, List.append_nil]
      -- nothing is left to be replaced in the value
      have hskip := rep_skip (key := key) (val := val) (pre := true) (suf := true) val.length false val (Nat.le_refl _) ?_
      · rw [hskip, List.drop_length, rep_nil, List.take_length, List.append_nil]
      · intro j hj ⟨r, hr⟩
        have := congrArg List.length hr
        rw [List.length_drop, List.length_append] at this
        have h0 : j = 0 := by omega
        subst h0
        rw [List.drop_zero] at hr
        have : r = [] := List.eq_nil_of_length_eq_zero (by omega)
        rw [this, List.append_nil] at hr
        exact hne hr
    · rw [if_neg he]
      have h0 : hit key true true false (c :: w) = false := by
        cases hh : hit key true true false (c :: w) with
        | false => rfl
        | true =>
          exfalso
          obtain ⟨r, hr⟩ := hit_prefix hh
          unfold hit at hh
          cases r with
          | nil => rw [List.append_nil] at hr; exact he hr
          | cons x r =>
            have hx : isValidName x = true := h x (by rw [hr]; simp)
            rw [hr] at hh
            simp [nameAt, hx] at hh
      rw [rep_no h0, h c List.mem_cons_self, rep_inside w (fun x hx => h x (List.mem_cons_of_mem _ hx))]

theorem rep_names {key val : List Char} (hk : key ≠ []) (hl : val.length = key.length) (hne : val ≠ key)
    (hn : ∀ c ∈ key, isValidName c = true) : ∀ (n : Nat) (cs : List Char) (p : Bool), cs.length ≤ n →
    (p = false ∨ ∀ c r, cs = c :: r → isValidName c = false) →
    rep key val true true p cs = replaceName key val cs := by
  intro n
  induction n with
  | zero =>
    intro cs p h _
    rw [List.eq_nil_of_length_eq_zero (by omega : cs.length = 0)]; rfl
  | succ n ih =>
    intro cs p hlen hp
    have hnk : ∀ s, isValidName s = false → s ∉ key := by
      intro s hs hm; rw [hn s hm] at hs; exact absurd hs (by decide)
    -- the run of name characters at the beginning
    have hrun : ∃ w rest, cs = w ++ rest ∧ (∀ c ∈ w, isValidName c = true) ∧
        (rest = [] ∨ ∃ s b, rest = s :: b ∧ isValidName s = false) := by
      clear ih hlen hp
      induction cs with
      | nil => exact ⟨[], [], rfl, by simp, Or.inl rfl⟩
      | cons c cs ih =>
        cases hc : isValidName c with
        | false => exact ⟨[], c :: cs, rfl, by simp, Or.inr ⟨c, cs, rfl, hc⟩⟩
        | true =>
          obtain ⟨w, rest, h1, h2, h3⟩ := ih
          refine ⟨c :: w, rest, by rw [h1]; rfl, ?_, h3⟩
          intro x hx
          rcases List.mem_cons.mp hx with rfl | hx
          · exact hc
          · exact h2 x hx
    obtain ⟨w, rest, rfl, hw, hrest⟩ := hrun
    have hw' : ∀ c ∈ w, nameChar c = true := fun c hc => by rw [nameChar_eq]; exact hw c hc
    have hwp : w ≠ [] → p = false := by
      intro hwne
      rcases hp with h | h
      · exact h
      · cases w with
        | nil => exact absurd rfl hwne
        | cons c w => exact absurd (h c _ rfl) (by rw [hw c List.mem_cons_self]; decide)
    have hwrep : rep key val true true p w = if w = key then val else w := by
      cases w with
      | nil =>
        split
        · rename_i e; exact absurd e.symm hk
        · rfl
      | cons c w => rw [hwp nofun]; exact rep_word hk hl hne _ hw
    rcases hrest with rfl | ⟨s, b, rfl, hs⟩
    · rw [List.append_nil, hwrep]
      unfold replaceName
      cases w with
      | nil =>
        split
        · rename_i e; exact absurd e.symm hk
        · rfl
      | cons c w =>
        rw [words_name (w := c :: w) (List.cons_ne_nil _ _) hw']; simp
    · rw [rep_split hl hk (hnk s hs) hs b _ w p rfl, hwrep]
      simp only [List.length_append, List.length_cons] at hlen
      rw [ih b false (by omega) (Or.inl rfl)]
      have hs' : nameChar s = false := by rw [nameChar_eq]; exact hs
      have hsk : [s] ≠ key := by intro e; exact hnk s hs (by rw [← e]; simp)
      unfold replaceName
      cases w with
      | nil =>
        rw [List.nil_append, words_other hs', if_neg (fun e => hk e.symm)]
        simp [hsk]
      | cons c w =>
        rw [words_split hs' b (c :: w) (List.cons_ne_nil _ _) hw']
        simp [hsk]

/-! ## Replacement of variables -/

theorem rep_nopre {key val : List Char} {suf : Bool} (p q : Bool) (cs : List Char) :
    rep key val false suf p cs = rep key val false suf q cs := by
  unfold rep
  cases h : cs.length with
  | zero => rfl
  | succ n =>
    have : hit key false suf p cs = hit key false suf q cs := by unfold hit; simp
    simp only [repN, this]

theorem rep_over {key val : List Char} {suf : Bool} {k : Char} {ks : List Char} (hk : key = k :: ks) :
    ∀ (a b : List Char) (p : Bool), k ∉ a → rep key val false suf p (a ++ b) = a ++ rep key val false suf false b := by
  intro a
  induction a with
  | nil => intro b p _; exact rep_nopre _ _ _
  | cons c a ih =>
    intro b p h
    have h0 : hit key false suf p (c :: (a ++ b)) = false := by
      cases hh : hit key false suf p (c :: (a ++ b)) with
      | false => rfl
      | true =>
        obtain ⟨r, hr⟩ := hit_prefix hh
        rw [hk] at hr
        exact absurd ((List.cons.inj hr).1 ▸ List.mem_cons_self) h
    rw [List.cons_append, rep_no h0, ih _ _ (fun hm => h (List.mem_cons_of_mem _ hm))]
    rfl

theorem hit_iff {key : List Char} {suf p : Bool} {cs : List Char} : hit key false suf p cs = true ↔
    (key <+: cs ∧ ¬ (suf = true ∧ ∃ x ∈ cs[key.length]?, nameChar x = true)) := by
  unfold hit nameAt
  rw [Bool.and_eq_true, Bool.and_eq_true, ← List.isPrefixOf_iff_prefix]
  constructor
  · rintro ⟨⟨h1, _⟩, h2⟩
    refine ⟨h1, ?_⟩
    rintro ⟨rfl, x, hx, hn⟩
    rw [Option.mem_def] at hx
    rw [nameChar_eq] at hn
    rw [hx] at h2
    simp [hn] at h2
  · rintro ⟨h1, h2⟩
    refine ⟨⟨h1, by simp⟩, ?_⟩
    cases suf with
    | false => simp
    | true =>
      cases hx : cs[key.length]? with
      | none => simp
      | some x =>
        have : isValidName x = false := by
          cases hn : isValidName x with
          | false => rfl
          | true => exact absurd ⟨rfl, x, hx, by rw [nameChar_eq]; exact hn⟩ h2
        simp [this]

theorem rep_occ {key val : List Char} {suf : Bool} {k : Char} {ks : List Char} (hk : key = k :: ks)
    (hl : val.length = key.length) (hv : k ∉ val) :
    ∀ (n : Nat) (cs : List Char) (p : Bool), cs.length ≤ n → rep key val false suf p cs = replaceOcc key val suf n cs := by
  intro n
  induction n with
  | zero => intro cs p h; rw [List.eq_nil_of_length_eq_zero (by omega : cs.length = 0)]; rfl
  | succ n ih =>
    intro cs p h
    cases cs with
    | nil => rfl
    | cons c cs =>
      have hne : val ≠ key := by intro e; rw [e, hk] at hv; exact hv List.mem_cons_self
      cases hh : hit key false suf p (c :: cs) with
      | true =>
        have hlen := hit_length hh
        have hkl : 0 < key.length := by rw [hk]; simp
        rw [rep_yes hl hne hh, rep_over hk _ _ _ hv, replaceOcc, if_pos (hit_iff.mp hh),
          ih _ false (by rw [List.length_drop]; omega)]
      | false =>
        rw [rep_no hh, replaceOcc, if_neg (fun h => by rw [hit_iff.mpr h] at hh; exact absurd hh (by decide)),
          ih _ _ (by simp only [List.length_cons] at h; omega)]

/-! ## The key of the shared memory -/

def PRes.mapCfg (f : Config → Config) : PRes Config → PRes Config
  | .ok g => .ok (f g)
  | .err e => .err e
  | .ub => .ub
  | .running w => .running w

/-- The function of the initial key is constant or hands it through. -/
def KeyWise (f : Int → PRes Config) : Prop :=
  (∀ k, f k = f 0) ∨ ∀ k, f k = (f 0).mapCfg fun g => { g with shmKey := k }

theorem keyWise_bind {α : Type} (r : PRes α) {f : α → Int → PRes Config} (h : ∀ a, KeyWise (f a)) :
    KeyWise fun k => r.bind fun a => f a k := by
  cases r with
  | ok a => exact h a
  | err e => exact Or.inl fun _ => rfl
  | ub => exact Or.inl fun _ => rfl
  | running w => exact Or.inl fun _ => rfl

theorem keyWise_const (r : PRes Config) : KeyWise fun _ => r := Or.inl fun _ => rfl

theorem loggerLoop_keyWise {dns : List Char → Option Int} {en : Nat} :
    ∀ (fuel : Nat) (t : List Char) (cur : Nat) (g : Config),
      KeyWise fun k => loggerLoop dns en fuel t cur { g with shmKey := k } := by
  intro fuel
  induction fuel with
  | zero => intro t cur g; exact keyWise_const _
  | succ fuel ih =>
    intro t cur g
    unfold loggerLoop
    refine keyWise_bind _ fun x => ?_
    obtain ⟨ln, c⟩ := x
    have hok : ∀ g : Config, KeyWise fun k => .ok { g with shmKey := k } := fun g => Or.inr fun k => rfl
    have hgo : ∀ (t : List Char) (cur : Nat) (g : Config), KeyWise fun k =>
        (if cur < en then loggerLoop dns en fuel t cur { g with shmKey := k }
          else if g.channels.length = 0 then .err .invalidChannelSize else .ok { g with shmKey := k }) := by
      intro t cur g
      split
      · exact ih _ _ _
      · split
        · exact keyWise_const _
        · exact hok g
    simp only
    cases ln.key with
    | none =>
      simp only
      split
      · exact hok g
      · exact ih _ _ _
    | some k =>
      cases k with
      | hotUpdate => exact hgo t c { g with hotUpdate := parseBool (lineVal t ln).1 }
      | define => exact keyWise_bind _ fun t => hgo t c g
      | «variable» => exact keyWise_bind _ fun t => hgo t c g
      | loggerName => exact hgo t c { g with name := parseString LOGGER_NAME_LEN (lineVal t ln).1 }
      | loggerDesc => exact hgo t c { g with desc := parseString LOGGER_DESC_LEN (lineVal t ln).1 }
      | shmKey => exact keyWise_const _
      | channel =>
        simp only
        split
        · exact keyWise_const _
        · split
          · exact keyWise_const _
          · exact keyWise_bind _ fun x => hgo t x.2 { g with channels := g.channels ++ [x.1] }
      | _ => exact keyWise_const _

end FNLog
