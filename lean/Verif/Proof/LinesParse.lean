import Verif.Proof.Lines

/-! # The loops of the parser on the list of significant lines -/

namespace FNLog
open Spec

/-- `ParseDevice` on lines: the device and the lines left. -/
def linesDevice (dns : List Char → Option Int) (indent : Nat) :
    List (List Char) → Device → Option (Device × List (List Char))
  | [], d => some (d, [])
  | l :: ls, d =>
    match readLine l with
    | none => none
    | some none => linesDevice dns indent ls d
    | some (some (b, k, v)) =>
      if b ≤ indent then some (d, l :: ls)
      else
        match devField dns k v [] d with
        | .ok d => linesDevice dns indent ls d
        | _ => none

/-- `ParseChannel` on lines, at most `n` of them. -/
def linesChannel (dns : List Char → Option Int) (indent : Nat) :
    Nat → List (List Char) → Channel → Option (Channel × List (List Char))
  | _, [], c => some (c, [])
  | 0, _ :: _, _ => none
  | n + 1, l :: ls, c =>
    match readLine l with
    | none => none
    | some none => linesChannel dns indent n ls c
    | some (some (b, k, v)) =>
      if b ≤ indent then some (c, l :: ls)
      else if k = .device then
        if c.devices.length ≥ MAX_DEVICE_SIZE then none
        else if atoi v ≠ c.devices.length then none
        else
          match linesDevice dns b ls { id := atoi v } with
          | none => none
          | some (d, ls) => linesChannel dns indent n ls (addDevice c d)
      else
        match chanField k v [] c with
        | .ok c => linesChannel dns indent n ls c
        | _ => none

/-- A round of the parser at position `cur`. -/
inductive Step (t : List Char) (cur : Nat) : Prop where
  | bad (e : PErr) (l : List Char) (L : List (List Char)) (hlex : lex t t.length cur = .err e)
      (hsig : significant (t.drop cur) = l :: L) (hl : readLine l = none)
  | skip (ln : Line) (c : Nat) (hlex : lex t t.length cur = .ok (ln, c)) (hk : ln.key = none) (h1 : cur < c)
      (h2 : c ≤ t.length)
      (hsig : significant (t.drop cur) = significant (t.drop c) ∨
        ∃ l, significant (t.drop cur) = l :: significant (t.drop c) ∧ readLine l = some none)
  | key (ln : Line) (c : Nat) (l : List Char) (k : Key) (v tail : List Char) (hlex : lex t t.length cur = .ok (ln, c))
      (hk : ln.key = some k) (h1 : cur < c) (h2 : c ≤ t.length)
      (hsig : significant (t.drop cur) = l :: significant (t.drop c))
      (hl : readLine l = some (some (ln.blank, k, v))) (hv : lineVal t ln = (v, tail))
      (ht : NoDigit tail) (hn : NumFree (t.drop c) → NumFree tail)
      (hchars : ∀ x ∈ v, x ≠ '#' ∧ x ≠ '\r' ∧ x ≠ '\n' ∧ x ≠ '\x00')
      (hhead : ∀ x s, v = x :: s → isBlank x = false)
      (hcover : cur ≤ ln.valEnd ∧ ln.valEnd ≤ c)
      (hrest : t.drop c = [] ∨ ∃ x nl, (nl = '\r' ∨ nl = '\n') ∧ t.drop ln.valEnd = x ++ nl :: t.drop c)

theorem cut_chars {p : List Char} {x : Char} (h : x ∈ cut p) : x ∈ p ∧ x ≠ '#' := by
  refine ⟨mem_takeWhile h, ?_⟩
  have := List.all_eq_true.mp (List.all_takeWhile (p := (· != '#')) (l := p)) x h
  simpa using this

theorem step {t : List Char} (h0 : '\x00' ∉ t) {cur : Nat} (hc : cur < t.length) : Step t cur := by
  obtain ⟨p, rest, hd, hp, hr⟩ := first_line (t.drop cur) (fun h => h0 (List.mem_of_mem_drop h))
  have hline := lex_line (en := t.length) hc hp hr hd
  obtain ⟨hsig, hrest⟩ := significant_step hp hr
  rw [← hd] at hsig hrest
  have hdc : (t.drop cur).drop (p.length + endLen rest) = t.drop (cur + p.length + endLen rest) := by
    rw [List.drop_drop, Nat.add_assoc]
  rw [hdc] at hsig hrest
  have hpos : cur < cur + p.length + endLen rest ∧ cur + p.length + endLen rest ≤ t.length := by
    rcases lex_cases t t.length cur (by omega) with ⟨e, he⟩ | ⟨ln, c, hl, _⟩
    · -- use the shape of the text
      have hlen := congrArg List.length hd
      rw [List.length_drop, List.length_append] at hlen
      rcases hr with rfl | ⟨x, r, rfl, _⟩
      · simp only [endLen, List.length_nil] at hlen ⊢; omega
      · simp only [List.length_cons] at hlen
        by_cases hx : (r.headD '\x00' = '\r' ∨ r.headD '\x00' = '\n') ∧ r.headD '\x00' ≠ x
        · have hel : endLen (x :: r) = 2 := if_pos hx
          rw [hel]
          cases r with
          | nil => exact absurd hx.1 (by decide)
          | cons y r => simp only [List.length_cons] at hlen; omega
        · have hel : endLen (x :: r) = 1 := if_neg hx
          rw [hel]; omega
    · have hlen := congrArg List.length hd
      rw [List.length_drop, List.length_append] at hlen
      rcases hr with rfl | ⟨x, r, rfl, _⟩
      · simp only [endLen, List.length_nil] at hlen ⊢; omega
      · simp only [List.length_cons] at hlen
        by_cases hx : (r.headD '\x00' = '\r' ∨ r.headD '\x00' = '\n') ∧ r.headD '\x00' ≠ x
        · have hel : endLen (x :: r) = 2 := if_pos hx
          rw [hel]
          cases r with
          | nil => exact absurd hx.1 (by decide)
          | cons y r => simp only [List.length_cons] at hlen; omega
        · have hel : endLen (x :: r) = 1 := if_neg hx
          rw [hel]; omega
  cases hrl : readLine (cut p) with
  | none =>
    rw [hrl] at hline
    obtain ⟨e, he⟩ := hline
    have hnb : blankLine (cut p) = false := by
      cases hb : blankLine (cut p) with
      | false => rfl
      | true => rw [readLine_blank hb] at hrl; exact absurd hrl (by nofun)
    refine .bad e (cut p) (significant (t.drop (cur + p.length + endLen rest))) he ?_ hrl
    rw [hsig]; unfold single; rw [hnb]; rfl
  | some o =>
    cases o with
    | none =>
      rw [hrl] at hline
      obtain ⟨ln, he, hk⟩ := hline
      refine .skip ln _ he hk hpos.1 hpos.2 ?_
      rw [hsig]
      unfold single
      cases hb : blankLine (cut p) with
      | true => exact Or.inl rfl
      | false => exact Or.inr ⟨cut p, rfl, hrl⟩
    | some x =>
      obtain ⟨b, k, v⟩ := x
      rw [hrl] at hline
      obtain ⟨ln, he, hk, hb, hlo, hle, hlim, hv, htail⟩ := hline
      have hnb : blankLine (cut p) = false := by
        cases hb : blankLine (cut p) with
        | false => rfl
        | true => rw [readLine_blank hb] at hrl; exact absurd hrl (by nofun)
      obtain ⟨ht1, ht2⟩ := tailOk_numFree htail hrest
      obtain ⟨hch, hhd⟩ := readLine_chars hrl
      refine .key ln _ (cut p) k v (t.drop ln.valEnd) he hk hpos.1 hpos.2 ?_ (by rw [hb]; exact hrl) ?_ ht1 ht2 ?_ hhd
        ⟨by omega, by omega⟩ ?_
      · rw [hsig]; unfold single; rw [hnb]; rfl
      · unfold lineVal; rw [hv, Nat.max_eq_right hle]
      · intro x hx
        obtain ⟨h1, h2⟩ := cut_chars (hch x hx)
        have := hp x h1
        exact ⟨h2, this.1, this.2.1, this.2.2⟩
      · rcases hrest with rfl | ⟨x, nl, hnl, hx, _⟩
        · left
          rw [show cur + p.length + endLen [] = cur + p.length from rfl, drop_shift hd]; simp
        · right
          have h3 : t.drop ln.valEnd = (p.drop (ln.valEnd - cur)) ++ rest := by
            have := drop_shift hd (ln.valEnd - cur)
            rw [show cur + (ln.valEnd - cur) = ln.valEnd by omega] at this
            rw [this, List.drop_append_of_le_length (by omega)]
          exact ⟨p.drop (ln.valEnd - cur) ++ x, nl, hnl, by rw [h3]; conv => lhs; rw [hx]
                                                            simp⟩

/-- The outcomes of the parser on the text and on the lines correspond. -/
def Agree {α : Type} (t : List Char) (r : PRes (α × Nat)) (o : Option (α × List (List Char))) : Prop :=
  match r, o with
  | .ok (a, c), some (b, L) => a = b ∧ significant (t.drop c) = L
  | .ok _, none => False
  | _, some _ => False
  | _, none => True

theorem agree_err {α : Type} {t : List Char} {e : PErr} {o : Option (α × List (List Char))}
    (h : Agree t (.err e) o) : o = none := by
  cases o with
  | none => rfl
  | some x => exact False.elim h

theorem agree_ub {α : Type} {t : List Char} {o : Option (α × List (List Char))}
    (h : Agree t .ub o) : o = none := by
  cases o with
  | none => rfl
  | some x => exact False.elim h

theorem agree_running {α : Type} {t : List Char} {w} {o : Option (α × List (List Char))}
    (h : Agree t (.running w) o) : o = none := by
  cases o with
  | none => rfl
  | some x => exact False.elim h

theorem agree_none {α : Type} {t : List Char} {r : PRes (α × Nat)} (h : ∀ x, r ≠ .ok x) : Agree t r none := by
  cases r with
  | ok x => exact absurd rfl (h x)
  | err e => trivial
  | ub => trivial
  | running w => trivial

theorem agree_ok {α : Type} {t : List Char} {a : α} {c : Nat} {o} (h : Agree t (.ok (a, c)) o) :
    o = some (a, significant (t.drop c)) := by
  cases o with
  | none => exact absurd h (by simp [Agree])
  | some x =>
    obtain ⟨b, L⟩ := x
    obtain ⟨h1, h2⟩ := h
    rw [h1, h2]

theorem agree_not_ok {α : Type} {t : List Char} {r : PRes (α × Nat)} (h : Agree t r none) : ∀ x, r ≠ .ok x := by
  intro x hx
  rw [hx] at h
  exact h

theorem linesDevice_bad {dns : List Char → Option Int} {indent : Nat} {l : List Char} {L : List (List Char)} {d : Device}
    (h : readLine l = none) : linesDevice dns indent (l :: L) d = none := by
  unfold linesDevice; rw [h]

theorem linesChannel_bad {dns : List Char → Option Int} {indent n : Nat} {l : List Char} {L : List (List Char)} {c : Channel}
    (h : readLine l = none) : linesChannel dns indent n (l :: L) c = none := by
  cases n with
  | zero => rfl
  | succ n => unfold linesChannel; rw [h]

theorem lex_at_end (t : List Char) {cur : Nat} (h : ¬ cur < t.length) : lex t t.length cur = .ok ({}, cur) := by
  unfold lex; rw [if_pos (by omega)]

theorem drop_at_end {t : List Char} {cur : Nat} (h : ¬ cur < t.length) : t.drop cur = [] :=
  List.drop_eq_nil_of_le (by omega)

theorem numFree_end {t : List Char} {c : Nat} (h : ¬ NumFree (t.drop c)) : c < t.length := by
  apply Decidable.byContradiction
  intro hc
  rw [drop_at_end hc] at h
  exact h numFree_nil

/-- Devices. -/
theorem parseDevice_lines {dns : List Char → Option Int} {t : List Char} (h0 : '\x00' ∉ t) (indent : Nat) :
    ∀ (fuel cur : Nat) (d : Device), t.length - cur < fuel →
      Agree t (parseDevice dns t t.length indent fuel cur d) (linesDevice dns indent (significant (t.drop cur)) d) := by
  intro fuel
  induction fuel with
  | zero => intro cur d h; omega
  | succ fuel ih =>
    intro cur d hf
    unfold parseDevice
    by_cases hc : cur < t.length
    · cases step h0 hc with
      | bad e l L hlex hsig hl =>
        rw [hlex, hsig, linesDevice_bad hl]; trivial
      | skip ln c hlex hk h1 h2 hsig =>
        rw [hlex]
        simp only [PRes.bind, hk]
        have hL : linesDevice dns indent (significant (t.drop cur)) d = linesDevice dns indent (significant (t.drop c)) d := by
          rcases hsig with h | ⟨l, h, hl⟩
          · rw [h]
          · rw [h]; conv => lhs; unfold linesDevice
            rw [hl]
        rw [hL]
        split
        · rename_i hge
          rw [drop_at_end (by omega)]
          exact ⟨rfl, by rw [drop_at_end (by omega)]; rfl⟩
        · exact ih c d (by omega)
      | key ln c l k v tail hlex hk h1 h2 hsig hl hv ht hn _ _ _ _ =>
        rw [hlex]
        simp only [PRes.bind, hk]
        rw [hsig]
        have hL : linesDevice dns indent (l :: significant (t.drop c)) d =
            if ln.blank ≤ indent then some (d, l :: significant (t.drop c))
            else match devField dns k v [] d with
              | .ok d => linesDevice dns indent (significant (t.drop c)) d
              | _ => none := by
          conv => lhs; unfold linesDevice
          rw [hl]
        rw [hL]
        split
        · exact ⟨rfl, hsig⟩
        · rw [hv]
          simp only
          by_cases hnf : NumFree (t.drop c)
          · rw [devField_tail ht (hn hnf)]
            cases devField dns k v [] d with
            | ok d1 =>
              simp only
              split
              · exact ih c d1 (by omega)
              · rename_i hge
                rw [drop_at_end hge]
                exact ⟨rfl, by rw [drop_at_end hge]; rfl⟩
            | err e => trivial
            | ub => trivial
            | running w => trivial
          · obtain ⟨l', L', hs', hl'⟩ := bad_line _ _ (Nat.le_refl _) (fun h => h0 (List.mem_of_mem_drop h)) hnf
            have hnone : ∀ d, linesDevice dns indent (significant (t.drop c)) d = none := by
              intro d; rw [hs', linesDevice_bad hl']
            have hgoal : (match devField dns k v [] d with
              | .ok d => linesDevice dns indent (significant (t.drop c)) d
              | _ => none) = none := by
              cases devField dns k v [] d with
              | ok d1 => exact hnone d1
              | err e => rfl
              | ub => rfl
              | running w => rfl
            rw [hgoal]
            cases devField dns k v tail d with
            | ok d1 =>
              simp only
              rw [if_pos (numFree_end hnf)]
              have := ih c d1 (by omega)
              rwa [hnone d1] at this
            | err e => trivial
            | ub => trivial
            | running w => trivial
    · rw [lex_at_end t hc, drop_at_end hc]
      simp only [PRes.bind]
      rw [if_pos (by omega)]
      exact ⟨rfl, by rw [drop_at_end hc]; rfl⟩


theorem linesDevice_length {dns : List Char → Option Int} {indent : Nat} :
    ∀ (L : List (List Char)) (d d' : Device) (L' : List (List Char)), linesDevice dns indent L d = some (d', L') →
      L'.length ≤ L.length := by
  intro L
  induction L with
  | nil => intro d d' L' h; unfold linesDevice at h; obtain ⟨_, rfl⟩ := Prod.mk.inj (Option.some.inj h); exact Nat.le_refl _
  | cons l L ih =>
    intro d d' L' h
    unfold linesDevice at h
    split at h
    · exact absurd h (by nofun)
    · have := ih _ _ _ h; simp only [List.length_cons]; omega
    · split at h
      · obtain ⟨_, rfl⟩ := Prod.mk.inj (Option.some.inj h); exact Nat.le_refl _
      · split at h
        · have := ih _ _ _ h; simp only [List.length_cons]; omega
        · exact absurd h (by nofun)

/-- Channels. -/
theorem parseChannel_lines {dns : List Char → Option Int} {t : List Char} (h0 : '\x00' ∉ t) (indent : Nat) :
    ∀ (fuel cur n : Nat) (c : Channel), cur ≤ t.length → t.length - cur < fuel → (significant (t.drop cur)).length ≤ n →
      Agree t (parseChannel dns t t.length indent fuel cur c) (linesChannel dns indent n (significant (t.drop cur)) c) := by
  intro fuel
  induction fuel with
  | zero => intro cur n d _ h; omega
  | succ fuel ih =>
    intro cur n ch hcur hf hn'
    unfold parseChannel
    by_cases hc : cur < t.length
    · cases step h0 hc with
      | bad e l L hlex hsig hl =>
        rw [hlex, hsig, linesChannel_bad hl]; trivial
      | skip ln c hlex hk h1 h2 hsig =>
        rw [hlex]
        simp only [PRes.bind, hk]
        have hL : ∃ m, linesChannel dns indent n (significant (t.drop cur)) ch =
            linesChannel dns indent m (significant (t.drop c)) ch ∧ (significant (t.drop c)).length ≤ m := by
          rcases hsig with h | ⟨l, h, hl⟩
          · exact ⟨n, by rw [h], by rw [← h]; exact hn'⟩
          · rw [h] at hn' ⊢
            simp only [List.length_cons] at hn'
            cases n with
            | zero => omega
            | succ n =>
              refine ⟨n, ?_, by omega⟩
              conv => lhs; unfold linesChannel
              rw [hl]
        obtain ⟨m, hL, hm⟩ := hL
        rw [hL]
        split
        · rename_i hge
          rw [drop_at_end (by omega)]
          have : linesChannel dns indent m (significant []) ch = some (ch, []) := by
            rw [significant_nil]; cases m <;> rfl
          rw [this]
          exact ⟨rfl, by rw [drop_at_end (by omega)]; rfl⟩
        · exact ih c m ch h2 (by omega) hm
      | key ln c l k v tail hlex hk h1 h2 hsig hl hv ht hn _ _ _ _ =>
        rw [hlex]
        simp only [PRes.bind, hk]
        rw [hsig] at hn' ⊢
        simp only [List.length_cons] at hn'
        cases n with
        | zero => omega
        | succ n =>
        have hL : linesChannel dns indent (n + 1) (l :: significant (t.drop c)) ch =
            if ln.blank ≤ indent then some (ch, l :: significant (t.drop c))
            else if k = .device then
              if ch.devices.length ≥ MAX_DEVICE_SIZE then none
              else if atoi v ≠ ch.devices.length then none
              else
                match linesDevice dns ln.blank (significant (t.drop c)) { id := atoi v } with
                | none => none
                | some (d, ls) => linesChannel dns indent n ls (addDevice ch d)
            else match chanField k v [] ch with
              | .ok d => linesChannel dns indent n (significant (t.drop c)) d
              | _ => none := by
          conv => lhs; unfold linesChannel
          rw [hl]
        rw [hL]
        have hend : ∀ (x : Channel), ¬ c < t.length → Agree t (.ok (x, c)) (linesChannel dns indent n (significant (t.drop c)) x) := by
          intro x hge
          rw [drop_at_end hge]
          have : linesChannel dns indent n (significant []) x = some (x, []) := by
            rw [significant_nil]; cases n <;> rfl
          rw [this]
          exact ⟨rfl, by rw [drop_at_end hge]; rfl⟩
        split
        · exact ⟨rfl, hsig⟩
        · rw [hv]
          simp only
          split
          · split
            · trivial
            · by_cases hnf : NumFree (t.drop c)
              · rw [atoi_tail ht (hn hnf)]
                split
                · trivial
                · have hdev := parseDevice_lines (dns := dns) h0 ln.blank fuel c { id := atoi v } (by omega)
                  cases hpd : parseDevice dns t t.length ln.blank fuel c { id := atoi v } with
                  | ok x =>
                    obtain ⟨d, c2⟩ := x
                    rw [hpd] at hdev
                    have hld := agree_ok hdev
                    have hpos := parseDevice_pos t _ _ _ _ _ _ _ h2 hpd
                    have hlen := linesDevice_length _ _ _ _ hld
                    rw [hld]
                    simp only
                    split
                    · exact ih c2 n (addDevice ch d) hpos.2 (by omega) (by omega)
                    · rename_i hge
                      rw [drop_at_end hge]
                      have : linesChannel dns indent n (significant []) (addDevice ch d) = some (addDevice ch d, []) := by
                        rw [significant_nil]; cases n <;> rfl
                      rw [this]
                      exact ⟨rfl, by rw [drop_at_end hge]; rfl⟩
                  | err e =>
                    rw [hpd] at hdev
                    have hld := agree_err hdev
                    rw [hld]; trivial
                  | ub =>
                    rw [hpd] at hdev
                    have hld := agree_ub hdev
                    rw [hld]; trivial
                  | running w =>
                    rw [hpd] at hdev
                    have hld := agree_running hdev
                    rw [hld]; trivial
              · obtain ⟨l', L', hs', hl'⟩ := bad_line _ _ (Nat.le_refl _) (fun h => h0 (List.mem_of_mem_drop h)) hnf
                have hR : (if atoi v ≠ ch.devices.length then none
                    else match linesDevice dns ln.blank (significant (t.drop c)) { id := atoi v } with
                      | none => none
                      | some (d, ls) => linesChannel dns indent n ls (addDevice ch d)) = none := by
                  split
                  · rfl
                  · rw [hs', linesDevice_bad hl']
                rw [hR]
                apply agree_none
                intro x
                split
                · exact nofun
                · have hdev := parseDevice_lines (dns := dns) h0 ln.blank fuel c { id := atoi (v ++ tail) } (by omega)
                  rw [hs', linesDevice_bad hl'] at hdev
                  cases hpd : parseDevice dns t t.length ln.blank fuel c { id := atoi (v ++ tail) } with
                  | ok x => exact absurd hpd (agree_not_ok hdev x)
                  | err e => exact nofun
                  | ub => exact nofun
                  | running w => exact nofun
          · by_cases hnf : NumFree (t.drop c)
            · rw [chanField_tail ht (hn hnf)]
              cases chanField k v [] ch with
              | ok d1 =>
                simp only
                split
                · exact ih c n d1 h2 (by omega) (by omega)
                · rename_i hge; exact hend d1 hge
              | err e => trivial
              | ub => trivial
              | running w => trivial
            · obtain ⟨l', L', hs', hl'⟩ := bad_line _ _ (Nat.le_refl _) (fun h => h0 (List.mem_of_mem_drop h)) hnf
              have hnone : ∀ d, linesChannel dns indent n (significant (t.drop c)) d = none := by
                intro d; rw [hs', linesChannel_bad hl']
              have hgoal : (match chanField k v [] ch with
                | .ok d => linesChannel dns indent n (significant (t.drop c)) d
                | _ => none) = none := by
                cases chanField k v [] ch with
                | ok d1 => exact hnone d1
                | err e => rfl
                | ub => rfl
                | running w => rfl
              rw [hgoal]
              cases chanField k v tail ch with
              | ok d1 =>
                simp only
                rw [if_pos (numFree_end hnf)]
                have := ih c n d1 h2 (by omega) (by omega)
                rwa [hnone d1] at this
              | err e => trivial
              | ub => trivial
              | running w => trivial
    · rw [lex_at_end t hc, drop_at_end hc]
      simp only [PRes.bind]
      rw [if_pos (by omega)]
      have : linesChannel dns indent n (significant []) ch = some (ch, []) := by
        rw [significant_nil]; cases n <;> rfl
      rw [this]
      exact ⟨rfl, by rw [drop_at_end hc]; rfl⟩

end FNLog
