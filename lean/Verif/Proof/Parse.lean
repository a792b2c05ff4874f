import Verif.Proof.Lex

/-! # The loops of the parser: invariants, positions, termination -/

namespace FNLog
open Spec

theorem PRes.bind_ok {α β : Type} {r : PRes α} {f : α → PRes β} {b : β} (h : r.bind f = .ok b) :
    ∃ a, r = .ok a ∧ f a = .ok b := by
  cases r with
  | ok a => exact ⟨a, rfl, h⟩
  | err e => exact absurd h (by nofun)
  | ub => exact absurd h (by nofun)
  | running w => exact absurd h (by nofun)

/-! ## Invariants of results -/

/-- Whatever all lines of a device preserve holds of the parsed device. -/
theorem parseDevice_inv (P : Device → Prop) {dns : List Char → Option Int}
    (hP : ∀ k v tail d d', P d → devField dns k v tail d = .ok d' → P d') (t : List Char) (en indent : Nat) :
    ∀ (fuel cur : Nat) (d d' : Device) (c : Nat), P d →
      parseDevice dns t en indent fuel cur d = .ok (d', c) → P d' := by
  intro fuel
  induction fuel with
  | zero => intro cur d d' c _ h; exact absurd h (by nofun)
  | succ fuel ih =>
    intro cur d d' c hd h
    unfold parseDevice at h
    obtain ⟨⟨ln, cur'⟩, hlex, h⟩ := PRes.bind_ok h
    simp only at h
    cases hk : ln.key with
    | none =>
      rw [hk] at h
      simp only at h
      split at h
      · obtain ⟨rfl, rfl⟩ := Prod.mk.inj (PRes.ok.inj h); exact hd
      · exact ih _ _ _ _ hd h
    | some k =>
      rw [hk] at h
      simp only at h
      split at h
      · obtain ⟨rfl, rfl⟩ := Prod.mk.inj (PRes.ok.inj h); exact hd
      · obtain ⟨d1, h1, h⟩ := PRes.bind_ok h
        have hd1 := hP _ _ _ _ _ hd h1
        split at h
        · exact ih _ _ _ _ hd1 h
        · obtain ⟨rfl, rfl⟩ := Prod.mk.inj (PRes.ok.inj h); exact hd1

/-- The same for channels. -/
theorem parseChannel_inv (P : Channel → Prop) (Q : Int → Device → Prop) {dns : List Char → Option Int}
    (hP : ∀ k v tail c c', P c → chanField k v tail c = .ok c' → P c')
    (hQ : ∀ k v tail i d d', Q i d → devField dns k v tail d = .ok d' → Q i d')
    (hQ0 : ∀ i, Q i { id := i })
    (hadd : ∀ c d, P c → c.devices.length < MAX_DEVICE_SIZE → Q c.devices.length d → P (addDevice c d))
    (t : List Char) (en indent : Nat) :
    ∀ (fuel cur : Nat) (c c' : Channel) (e : Nat), P c →
      parseChannel dns t en indent fuel cur c = .ok (c', e) → P c' := by
  intro fuel
  induction fuel with
  | zero => intro cur c c' e _ h; exact absurd h (by nofun)
  | succ fuel ih =>
    intro cur c c' e hc h
    unfold parseChannel at h
    obtain ⟨⟨ln, cur'⟩, hlex, h⟩ := PRes.bind_ok h
    simp only at h
    cases hk : ln.key with
    | none =>
      rw [hk] at h
      simp only at h
      split at h
      · obtain ⟨rfl, rfl⟩ := Prod.mk.inj (PRes.ok.inj h); exact hc
      · exact ih _ _ _ _ hc h
    | some k =>
      rw [hk] at h
      simp only at h
      split at h
      · obtain ⟨rfl, rfl⟩ := Prod.mk.inj (PRes.ok.inj h); exact hc
      · split at h
        · split at h
          · exact absurd h (by nofun)
          · split at h
            · exact absurd h (by nofun)
            · rename_i hsize hid
              obtain ⟨⟨d, cur2⟩, hd, h⟩ := PRes.bind_ok h
              have hid := Decidable.not_not.mp hid
              have hq : Q (c.devices.length : Nat) d :=
                parseDevice_inv (Q (c.devices.length : Nat)) (fun k v tail d d' => hQ k v tail _ d d') t en ln.blank
                  fuel cur' _ _ _ (by rw [← hid]; exact hQ0 _) hd
              have hp := hadd c d hc (by omega) hq
              simp only at h
              split at h
              · exact ih _ _ _ _ hp h
              · obtain ⟨rfl, rfl⟩ := Prod.mk.inj (PRes.ok.inj h); exact hp
        · obtain ⟨c1, h1, h⟩ := PRes.bind_ok h
          have hc1 := hP _ _ _ _ _ hc h1
          split at h
          · exact ih _ _ _ _ hc1 h
          · obtain ⟨rfl, rfl⟩ := Prod.mk.inj (PRes.ok.inj h); exact hc1

/-- The same for the whole file. -/
theorem loggerLoop_inv (R : Config → Prop) (P : Int → Channel → Prop) {dns : List Char → Option Int}
    (hP : ∀ i t en indent fuel cur c' e, parseChannel dns t en indent fuel cur { id := i } = .ok (c', e) → P i c')
    (hadd : ∀ g c, R g → g.channels.length < MAX_CHANNEL_SIZE → P g.channels.length c →
      R { g with channels := g.channels ++ [c] })
    (h1 : ∀ g b, R g → R { g with hotUpdate := b })
    (h2 : ∀ g v, R g → R { g with name := parseString LOGGER_NAME_LEN v })
    (h3 : ∀ g v, R g → R { g with desc := parseString LOGGER_DESC_LEN v })
    (h4 : ∀ g v, R g → R { g with shmKey := parseNumber v }) (en : Nat) :
    ∀ (fuel : Nat) (t : List Char) (cur : Nat) (g g' : Config), R g →
      loggerLoop dns en fuel t cur g = .ok g' → R g' := by
  intro fuel
  induction fuel with
  | zero => intro t cur g g' _ h; exact absurd h (by nofun)
  | succ fuel ih =>
    intro t cur g g' hg h
    unfold loggerLoop at h
    obtain ⟨⟨ln, cur'⟩, hlex, h⟩ := PRes.bind_ok h
    have again : ∀ (t : List Char) (cur : Nat) (g1 : Config), R g1 →
        (if cur < en then loggerLoop dns en fuel t cur g1
          else if g1.channels.length = 0 then .err .invalidChannelSize else .ok g1) = .ok g' → R g' := by
      intro t cur g1 hg1 h
      split at h
      · exact ih _ _ _ _ hg1 h
      · split at h
        · exact absurd h (by nofun)
        · exact PRes.ok.inj h ▸ hg1
    simp only at h
    split at h
    · split at h
      · exact PRes.ok.inj h ▸ hg
      · exact ih _ _ _ _ hg h
    · exact again _ _ _ (h1 _ _ hg) h
    · obtain ⟨t1, _, h⟩ := PRes.bind_ok h
      exact again _ _ _ hg h
    · obtain ⟨t1, _, h⟩ := PRes.bind_ok h
      exact again _ _ _ hg h
    · exact again _ _ _ (h2 _ _ hg) h
    · exact again _ _ _ (h3 _ _ hg) h
    · exact again _ _ _ (h4 _ _ hg) h
    · split at h
      · exact absurd h (by nofun)
      · split at h
        · exact absurd h (by nofun)
        · rename_i hsz hid
          obtain ⟨⟨c, cur2⟩, hc, h⟩ := PRes.bind_ok h
          have hp := hP _ _ _ _ _ _ _ _ hc
          rw [Decidable.not_not.mp hid] at hp
          exact again _ _ _ (hadd _ _ hg (by omega) hp) h
    · exact absurd h (by nofun)

/-! ## Positions -/

theorem parseDevice_pos {dns : List Char → Option Int} (t : List Char) (en indent : Nat) :
    ∀ (fuel cur : Nat) (d d' : Device) (c : Nat), cur ≤ t.length →
      parseDevice dns t en indent fuel cur d = .ok (d', c) → cur ≤ c ∧ c ≤ t.length := by
  intro fuel
  induction fuel with
  | zero => intro cur d d' c _ h; exact absurd h (by nofun)
  | succ fuel ih =>
    intro cur d d' c hcur h
    unfold parseDevice at h
    rcases lex_cases t en cur hcur with ⟨e, he⟩ | ⟨ln, cur', hl, hp1, hp2, _⟩
    · rw [he] at h; exact absurd h (by nofun)
    rw [hl] at h
    simp only [PRes.bind] at h
    cases hk : ln.key with
    | none =>
      rw [hk] at h
      simp only at h
      split at h
      · obtain ⟨rfl, rfl⟩ := Prod.mk.inj (PRes.ok.inj h); exact ⟨hp1, hp2⟩
      · have := ih _ _ _ _ hp2 h; omega
    | some k =>
      rw [hk] at h
      simp only at h
      split at h
      · obtain ⟨rfl, rfl⟩ := Prod.mk.inj (PRes.ok.inj h); exact ⟨Nat.le_refl _, hcur⟩
      · obtain ⟨d1, h1, h⟩ := PRes.bind_ok h
        split at h
        · have := ih _ _ _ _ hp2 h; omega
        · obtain ⟨rfl, rfl⟩ := Prod.mk.inj (PRes.ok.inj h); exact ⟨hp1, hp2⟩

theorem parseChannel_pos {dns : List Char → Option Int} (t : List Char) (en indent : Nat) :
    ∀ (fuel cur : Nat) (c c' : Channel) (e : Nat), cur ≤ t.length →
      parseChannel dns t en indent fuel cur c = .ok (c', e) → cur ≤ e ∧ e ≤ t.length := by
  intro fuel
  induction fuel with
  | zero => intro cur c c' e _ h; exact absurd h (by nofun)
  | succ fuel ih =>
    intro cur c c' e hcur h
    unfold parseChannel at h
    rcases lex_cases t en cur hcur with ⟨e, he⟩ | ⟨ln, cur', hl, hp1, hp2, _⟩
    · rw [he] at h; exact absurd h (by nofun)
    rw [hl] at h
    simp only [PRes.bind] at h
    cases hk : ln.key with
    | none =>
      rw [hk] at h
      simp only at h
      split at h
      · obtain ⟨rfl, rfl⟩ := Prod.mk.inj (PRes.ok.inj h); exact ⟨hp1, hp2⟩
      · have := ih _ _ _ _ hp2 h; omega
    | some k =>
      rw [hk] at h
      simp only at h
      split at h
      · obtain ⟨rfl, rfl⟩ := Prod.mk.inj (PRes.ok.inj h); exact ⟨Nat.le_refl _, hcur⟩
      · split at h
        · split at h
          · exact absurd h (by nofun)
          · split at h
            · exact absurd h (by nofun)
            · obtain ⟨⟨d, cur2⟩, hd, h⟩ := PRes.bind_ok h
              have hq := parseDevice_pos t en _ _ _ _ _ _ hp2 hd
              simp only at h
              split at h
              · have := ih _ _ _ _ hq.2 h; omega
              · obtain ⟨rfl, rfl⟩ := Prod.mk.inj (PRes.ok.inj h); omega
        · obtain ⟨c1, h1, h⟩ := PRes.bind_ok h
          split at h
          · have := ih _ _ _ _ hp2 h; omega
          · obtain ⟨rfl, rfl⟩ := Prod.mk.inj (PRes.ok.inj h); exact ⟨hp1, hp2⟩

/-! ## Termination of the loops over lines -/

theorem ofOption_ne_running {α : Type} (o : Option α) (w) : PRes.ofOption o ≠ .running w := by
  cases o <;> exact nofun

theorem bind_ne_running {α β : Type} {r : PRes α} {f : α → PRes β} {w} (h1 : r ≠ .running w)
    (h2 : ∀ a, r = .ok a → f a ≠ .running w) : r.bind f ≠ .running w := by
  cases r with
  | ok a => exact h2 a rfl
  | err e => exact nofun
  | ub => exact nofun
  | running w' => intro h; exact h1 (by simpa [PRes.bind] using h)

theorem devField_ne_running (dns k v tail d w) : devField dns k v tail d ≠ .running w := by
  cases k
  case outType => unfold devField; simp only; split <;> exact nofun
  case udpAddr => unfold devField; simp only; repeat' split
                  all_goals exact nofun
  case limitSize => exact bind_ne_running (ofOption_ne_running _ _) (fun _ _ => nofun)
  case categoryWlist => exact bind_ne_running (ofOption_ne_running _ _) (fun _ _ => nofun)
  case categoryBlist => exact bind_ne_running (ofOption_ne_running _ _) (fun _ _ => nofun)
  case identifyWlist => exact bind_ne_running (ofOption_ne_running _ _) (fun _ _ => nofun)
  case identifyBlist => exact bind_ne_running (ofOption_ne_running _ _) (fun _ _ => nofun)
  all_goals exact nofun

theorem chanField_ne_running (k v tail c w) : chanField k v tail c ≠ .running w := by
  cases k
  case categoryWlist => exact bind_ne_running (ofOption_ne_running _ _) (fun _ _ => nofun)
  case categoryBlist => exact bind_ne_running (ofOption_ne_running _ _) (fun _ _ => nofun)
  case identifyWlist => exact bind_ne_running (ofOption_ne_running _ _) (fun _ _ => nofun)
  case identifyBlist => exact bind_ne_running (ofOption_ne_running _ _) (fun _ _ => nofun)
  all_goals exact nofun

theorem parseDevice_ne_running {dns : List Char → Option Int} {t : List Char} (h0 : '\x00' ∉ t) (indent : Nat) (w) :
    ∀ (fuel cur : Nat) (d : Device), cur ≤ t.length → t.length - cur < fuel →
      parseDevice dns t t.length indent fuel cur d ≠ .running w := by
  intro fuel
  induction fuel with
  | zero => intro cur d _ h; omega
  | succ fuel ih =>
    intro cur d hcur hf
    unfold parseDevice
    rcases lex_cases t t.length cur hcur with ⟨e, he⟩ | ⟨ln, cur', hl, hp1, hp2, hp3⟩
    · rw [he]; exact nofun
    rw [hl]
    simp only [PRes.bind]
    have hp3 := hp3 h0 (Nat.le_refl _)
    cases ln.key with
    | none =>
      simp only
      split
      · exact nofun
      · exact ih _ _ hp2 (by omega)
    | some k =>
      simp only
      split
      · exact nofun
      · refine bind_ne_running (devField_ne_running _ _ _ _ _ _) (fun d1 _ => ?_)
        split
        · exact ih _ _ hp2 (by omega)
        · exact nofun

theorem parseChannel_ne_running {dns : List Char → Option Int} {t : List Char} (h0 : '\x00' ∉ t) (indent : Nat) (w) :
    ∀ (fuel cur : Nat) (c : Channel), cur ≤ t.length → t.length - cur < fuel →
      parseChannel dns t t.length indent fuel cur c ≠ .running w := by
  intro fuel
  induction fuel with
  | zero => intro cur d _ h; omega
  | succ fuel ih =>
    intro cur c hcur hf
    unfold parseChannel
    rcases lex_cases t t.length cur hcur with ⟨e, he⟩ | ⟨ln, cur', hl, hp1, hp2, hp3⟩
    · rw [he]; exact nofun
    rw [hl]
    have hp3 := hp3 h0 (Nat.le_refl _)
    show (match ln.key with
      | none => _
      | some k => _) ≠ _
    cases hkey : ln.key with
    | none =>
      simp only
      split
      · exact nofun
      · exact ih _ _ hp2 (by omega)
    | some k =>
      simp only
      have hlt : cur < cur' := by
        by_cases hc : cur < t.length
        · exact hp3 hc
        · unfold lex at hl
          rw [if_pos (by omega)] at hl
          obtain ⟨rfl, rfl⟩ := Prod.mk.inj (PRes.ok.inj hl)
          exact absurd hkey (by nofun)
      split
      · exact nofun
      · split
        · split
          · exact nofun
          · split
            · exact nofun
            · refine bind_ne_running (parseDevice_ne_running h0 _ w _ _ _ hp2 (by omega)) (fun x hx => ?_)
              obtain ⟨d, cur2⟩ := x
              have hq := parseDevice_pos t _ _ _ _ _ _ _ hp2 hx
              simp only
              split
              · exact ih _ _ hq.2 (by omega)
              · exact nofun
        · refine bind_ne_running (chanField_ne_running _ _ _ _ _) (fun c1 _ => ?_)
          split
          · exact ih _ _ hp2 (by omega)
          · exact nofun

end FNLog
