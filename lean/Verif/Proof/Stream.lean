import Verif.Spec.Stream
import Verif.Proof.FmtDbl
import Verif.Proof.FmtDate

/-! # Streaming into a record -/

namespace FNLog
open Spec

/-- `r'` is `r` with `t` appended. -/
structure Wrote (N : Nat) (r r' : Rec) (t : List Char) : Prop where
  size : r'.content.length = N
  len : r'.len = r.len + t.length
  bound : r'.len ≤ N
  text : r'.content.take r'.len = r.content.take r.len ++ t

theorem Wrote.refl {N : Nat} {r : Rec} (h : r.content.length = N) (hl : r.len ≤ N) : Wrote N r r [] :=
  ⟨h, rfl, hl, by simp⟩

theorem Wrote.trans {N : Nat} {r r' r'' : Rec} {t t' : List Char} (h : Wrote N r r' t) (h' : Wrote N r' r'' t') :
    Wrote N r r'' (t ++ t') :=
  ⟨h'.size, by rw [h'.len, h.len, List.length_append]; omega, h'.bound, by
    rw [h'.text, h.text, List.append_assoc]⟩

theorem fmt_wrote {N : Nat} {r : Rec} {f : List Char → Nat → Option (List Char × Nat)} {t : List Char}
    (h : r.content.length = N) (he : Emits (f r.content r.len) r.content r.len t) (hf : r.len + t.length ≤ N) :
    ∃ r', r.fmt f = some r' ∧ Wrote N r r' t := by
  obtain ⟨b', hb, hl, ht⟩ := he
  exact ⟨⟨b', r.len + t.length⟩, by simp [Rec.fmt, hb], by rw [hl, h], rfl, hf, ht⟩

theorem push_wrote {N : Nat} {r : Rec} {t : List Char} (h : r.content.length = N) (hf : r.len + t.length ≤ N) :
    ∃ r', r.pushUnsafe t = some r' ∧ Wrote N r r' t := by
  have hf' : r.len + t.length ≤ r.content.length := by omega
  exact ⟨⟨put r.content r.len t, r.len + t.length⟩, by simp [Rec.pushUnsafe, writeAt_put hf'],
    by rw [put_length hf', h], rfl, hf, put_take hf'⟩

theorem writeBuffer_wrote {N : Nat} {r : Rec} (t : List Char) (h : r.content.length = N) (hl : r.len ≤ N) :
    ∃ r', writeBuffer N r t = some r' ∧ Wrote N r r' (t.take (N - r.len)) := by
  unfold writeBuffer
  split
  · next hc =>
    rw [Nat.min_comm, ← List.take_take, List.take_length]
    apply push_wrote h
    rw [List.length_take]; omega
  · next hc =>
    have : t.take (N - r.len) = [] := by
      rcases Nat.eq_zero_or_pos t.length with h0 | h0
      · rw [List.length_eq_zero_iff.mp h0, List.take_nil]
      · have : N - r.len = 0 := by omega
        rw [this]; rfl
    rw [this]
    exact ⟨r, rfl, .refl h hl⟩

/-! ## Texts of primitive writes -/

/-- Arguments for which the formatting functions are defined. -/
def Prim.Ok : Prim → Prop
  | .ull w n => w ≤ 30 ∧ n < 2 ^ 64
  | .ll w n => w ≤ 30 ∧ -(2 ^ 63) < n ∧ n < 2 ^ 63
  | .ptr p | .ptrIf8 p => p < 2 ^ 64
  | .hexRow bs => ∀ x ∈ bs, 0 < x ∧ x < 256
  | .dbl d => d.Ok
  | .percent (.fin _ m _) => m < 2 ^ 24
  | _ => True

/-- The C library's local time stays in its documented ranges, and a local day does not have more than
99 hours. -/
structure Zone.Sane (z : Zone) : Prop where
  mon : ∀ t, 0 ≤ (z.localtime t).mon ∧ (z.localtime t).mon < 12
  mday : ∀ t, 0 ≤ (z.localtime t).mday ∧ (z.localtime t).mday ≤ 31
  day : ∀ t, z.midnight t ≤ t ∧ t < z.midnight t + 360000

/-- A date cache that the thread can have. -/
def CacheFrom (z : Zone) (c : DateCache) : Prop := c = DateCache.zero ∨ CacheOk z c

/-- The texts that the writers produce when the date cache is `c`. -/
def textsOf (E : Env) (c : DateCache) : Texts where
  dbl := doubleText E.lib
  date ts ms := dateOut (refreshDate E.zone c ts).1.date (refreshDate E.zone c ts).2 ms

theorem refreshDate_bounds {z : Zone} (hz : z.Sane) {c : DateCache} (hc : CacheFrom z c) (t : Int) :
    let p := refreshDate z c t
    0 ≤ p.1.date.mon ∧ p.1.date.mon < 12 ∧ 0 ≤ p.1.date.mday ∧ p.1.date.mday ≤ 31 ∧ 0 ≤ p.2 ∧ p.2 < 360000 := by
  intro p
  have h1 := refreshDate_ok z c t hc
  have h2 : 0 ≤ p.1.date.mon ∧ p.1.date.mon < 12 ∧ 0 ≤ p.1.date.mday ∧ p.1.date.mday ≤ 31 := by
    rcases h1 with h | ⟨u, h, _⟩
    · show 0 ≤ (refreshDate z c t).1.date.mon ∧ (refreshDate z c t).1.date.mon < 12 ∧ _
      simp only [p, h]; decide
    · simp only [p, h]; exact ⟨(hz.mon u).1, (hz.mon u).2, (hz.mday u).1, (hz.mday u).2⟩
  refine ⟨h2.1, h2.2.1, h2.2.2.1, h2.2.2.2, ?_⟩
  have := hz.day t
  simp only [p, refreshDate]
  split
  · simp only
    have e : z.midnight t = z.mktime ⟨(z.localtime t).year, (z.localtime t).mon,
      (z.localtime t).mday, 0, 0, 0⟩ (z.isdst t) := rfl
    omega
  · simp only
    omega

theorem dateParts_length {d : Tm} {s : Int} (ms : Nat) (h1 : 0 ≤ d.mon) (h2 : d.mon < 12) (h3 : 0 ≤ d.mday)
    (h4 : d.mday ≤ 31) (h5 : 0 ≤ s) (h6 : s < 360000) : (piecesText (dateParts d s ms)).length ≤ 39 := by
  have e2 : (toULL d.mon + 1) % 2 ^ 64 = (d.mon + 1).toNat := by unfold toULL; omega
  have e3 : toULL d.mday = d.mday.toNat := toULL_nonneg h3 (by omega)
  have e4 : toULL s = s.toNat := toULL_nonneg h5 (by omega)
  have t1 : s.tmod 3600 = s % 3600 := Int.tmod_eq_emod_of_nonneg h5
  have t2 : (s % 3600).tmod 60 = s % 3600 % 60 := Int.tmod_eq_emod_of_nonneg (by omega)
  have e5 : toULL (s % 3600) = (s % 3600).toNat := toULL_nonneg (by omega) (by omega)
  have e6 : toULL (s % 3600 % 60) = (s % 3600 % 60).toNat := toULL_nonneg (by omega) (by omega)
  simp only [dateParts, t1, t2, e2, e3, e4, e5, e6, piecesText, List.length_cons, List.length_append, List.length_nil]
  have l1 := padLeft_len_le (4 : Int).toNat ((toULL d.year + 1900) % 2 ^ 64) 19 (by decide) (by omega)
  have l2 := padLeft_len_le (2 : Int).toNat (d.mon + 1).toNat 1 (by decide) (by omega)
  have l3 := padLeft_len_le (2 : Int).toNat d.mday.toNat 1 (by decide) (by omega)
  have l4 := padLeft_len_le (2 : Int).toNat (s.toNat / 3600) 1 (by decide) (by omega)
  have l5 := padLeft_len_le (2 : Int).toNat ((s % 3600).toNat / 60) 1 (by decide) (by omega)
  have l6 := padLeft_len_le (2 : Int).toNat (s % 3600 % 60).toNat 1 (by decide) (by omega)
  have l7 := padLeft_len_le (3 : Int).toNat (if ms ≥ 1000 then 999 else ms) 2 (by decide) (by split <;> omega)
  omega

theorem signedWide_length (w : Int) (hw : w ≤ 30) (n : Int) (h0 : -(2 ^ 63) < n) (h1 : n < 2 ^ 63) :
    (signedWide w n).length ≤ 30 := by
  unfold signedWide
  split
  · rw [List.length_cons, padLeft_length]
    have := numeral_length_u64 (-n).toNat (by omega)
    omega
  · rw [padLeft_length]
    have := numeral_length_u64 n.toNat (by omega)
    omega

theorem pointer_length (p : Nat) (h : p < 2 ^ 64) : (pointer p).length ≤ 18 := by
  unfold pointer
  split
  · decide
  · rw [List.length_append]
    have := numeral_length_le 16 (by omega) 15 p (by omega)
    show 2 + _ ≤ 18
    omega

theorem writePointer_emits (b : List Char) (dst p : Nat) (hp : p < 2 ^ 64) (hf : dst + (pointer p).length ≤ b.length) :
    Emits (writePointer b dst (ptrOf p)) b dst (pointer p) := by
  unfold ptrOf pointer at *
  split
  · next h =>
    rw [if_pos h] at hf
    exact emit_emits hf
  · next h =>
    rw [if_neg h] at hf
    have hl : ("0x".toList ++ numeral 16 p).length = 2 + (numeral 16 p).length := by
      rw [List.length_append]; rfl
    have hpad : padLeft (0 : Int).toNat (numeral 16 p) = numeral 16 p := padLeft_of_le (by show 0 ≤ _; omega)
    unfold writePointer
    simp only
    have h2 : dst + "0x".toList.length ≤ b.length := by show dst + 2 ≤ _; omega
    rw [writeAt_put h2]
    simp only [Option.bind_eq_bind, Option.bind_some]
    rw [writeHex_put 0 _ (dst + 2) p (by omega) hp (by rw [put_length h2, hpad]; omega), hpad]
    simp only [Option.bind_some]
    have e : dst + 2 = dst + "0x".toList.length := rfl
    rw [e, put_put_right (by rw [hl]; omega)]
    exact Emits_put (by omega) hl.symm

theorem signed_emits (w : Int) (hw : w ≤ 30) (b : List Char) (dst : Nat) (n : Int) (h0 : -(2 ^ 63) < n)
    (h1 : n < 2 ^ 63) (hf : dst + (signedWide w n).length ≤ b.length) :
    Emits (writeDecS w b dst n) b dst (signedWide w n) := by
  rw [writeDecS_put w hw b dst n h0 h1 _ rfl hf]
  exact Emits_put hf rfl

theorem unsigned_emits (w : Int) (hw : w ≤ 30) (b : List Char) (dst : Nat) (n : Nat) (h1 : n < 2 ^ 64)
    (hf : dst + (padLeft w.toNat (numeral 10 n)).length ≤ b.length) :
    Emits (writeDecU w b dst n) b dst (padLeft w.toNat (numeral 10 n)) := by
  rw [writeDecU_put w hw b dst n h1 hf]
  exact Emits_put hf rfl

theorem hexByte_length {x : Nat} (h : x < 256) : (hexByte x).length = 3 := by
  unfold hexByte
  rw [List.length_append, padLeft_length]
  have := numeral_length_le 16 (by omega) 1 x (by omega)
  show max 2 _ + 1 = 3
  omega

/-- How many bytes of a dump row are printed from column `col` on. -/
def hexCount (N col : Nat) : Nat := (N - 30 - col + 2) / 3

theorem hexRow_wrote {N : Nat} : ∀ (bs : List Nat) (r : Rec), r.content.length = N → r.len ≤ N →
    (∀ x ∈ bs, 0 < x ∧ x < 256) →
    ∃ r', hexRow N bs r = some r' ∧ Wrote N r r' ((bs.take (hexCount N r.len)).flatMap hexByte) := by
  intro bs
  induction bs with
  | nil => intro r h hl _; exact ⟨r, rfl, by simpa using Wrote.refl h hl⟩
  | cons x xs ih =>
    intro r h hl hok
    have hx := hok x (by simp)
    have h3 := hexByte_length hx.2
    unfold hexRow
    split
    · next hg =>
      have : hexCount N r.len = 0 := by unfold hexCount; omega
      rw [this]
      exact ⟨r, rfl, .refl h hl⟩
    · next hg =>
      have hp : (padLeft (2 : Int).toNat (numeral 16 x)).length = 2 := by
        unfold hexByte at h3
        rw [List.length_append] at h3
        exact Nat.add_right_cancel h3
      obtain ⟨r1, e1, w1⟩ := fmt_wrote (f := fun b d => writeHex 2 b d x) h (t := padLeft (2 : Int).toNat (numeral 16 x))
        (by
          rw [writeHex_put 2 _ _ x hx.1 (by omega) (by rw [hp]; omega)]
          exact Emits_put (by rw [hp]; omega) rfl) (by rw [hp]; omega)
      have l1 := w1.len
      rw [hp] at l1
      obtain ⟨r2, e2, w2⟩ := writeBuffer_wrote [' '] w1.size w1.bound
      have e3 : [' '].take (N - r1.len) = [' '] := List.take_of_length_le (by simp; omega)
      rw [e3] at w2
      have l2 : r2.len = r1.len + 1 := w2.len
      obtain ⟨r3, e4, w3⟩ := ih r2 w2.size w2.bound (fun y hy => hok y (by simp [hy]))
      have hk : hexCount N r.len = hexCount N r2.len + 1 := by
        unfold hexCount
        rw [l2, l1]; omega
      refine ⟨r3, ?_, ?_⟩
      · rw [e1]
        simp only [Option.bind_eq_bind, Option.bind_some]
        rw [e2]
        exact e4
      · rw [hk]
        exact (w1.trans w2).trans w3

theorem blankLoop_wrote {N : Nat} : ∀ (n : Nat) (r : Rec), r.content.length = N → r.len + n ≤ N →
    ∃ r', blankLoop n r = some r' ∧ Wrote N r r' (List.replicate n ' ') := by
  intro n
  induction n with
  | zero => intro r h hl; exact ⟨r, rfl, .refl h (by omega)⟩
  | succ n ih =>
    intro r h hl
    obtain ⟨r1, e1, w1⟩ := push_wrote (t := [' ']) h (by simp; omega)
    have l1 := w1.len
    obtain ⟨r2, e2, w2⟩ := ih r1 w1.size (by rw [l1]; simp only [List.length_cons, List.length_nil]; omega)
    refine ⟨r2, ?_, w1.trans w2⟩
    unfold blankLoop
    rw [e1]; exact e2

/-- The room that a primitive write other than plain text asks for. -/
def Prim.room : Prim → Nat
  | .blank n => n + 1
  | .percent .. | .stamp .. => 41
  | _ => 30

/-- What a primitive write adds in column `col` of a record of `N` bytes. -/
def primPut (T : Texts) (N col : Nat) (p : Prim) : List Char :=
  match p with
  | .buf s => s.take (N - col)
  | .hexRow bs => (bs.take (hexCount N col)).flatMap hexByte
  | p => if col + p.room ≤ N then primText T col p else []

theorem times100_ok {d : Dbl} (h : (Prim.percent d).Ok) : d.times100.Ok := by
  cases d with
  | fin neg m e =>
    have h : m < 2 ^ 24 := h
    show m * 100 < 2 ^ 53
    omega
  | _ => trivial

theorem percentText_eq (T : Texts) {d : Dbl} (h : (Prim.percent d).Ok) :
    percentText T d = if d.below1em6 then "00.00%".toList else T.dbl d.times100 ++ ['%'] := by
  cases d with
  | nan => rfl
  | inf neg => cases neg <;> rfl
  | fin neg m e =>
    have h : m < 2 ^ 24 := h
    simp only [percentText, Dbl.below1em6, dyLt_1em6 h, Dbl.times100]
    cases neg
    · simp
    · simp

/-- The date cache after a primitive write. -/
def cacheStep (E : Env) (c : DateCache) (col : Nat) : Prim → DateCache
  | .stamp ts _ => if col + 40 < E.N then (refreshDate E.zone c ts).1 else c
  | _ => c

theorem cacheStep_from {E : Env} {c : DateCache} (hc : CacheFrom E.zone c) (col : Nat) (p : Prim) :
    CacheFrom E.zone (cacheStep E c col p) := by
  unfold cacheStep
  split
  · split
    · exact refreshDate_ok _ _ _ hc
    · exact hc
  · exact hc

/-- One primitive write. -/
theorem exec_wrote (E : Env) (hlib : E.lib.Sane) (hz : E.zone.Sane) (r : Rec) (c : DateCache) (p : Prim)
    (h : r.content.length = E.N) (hl : r.len ≤ E.N) (hc : CacheFrom E.zone c) (hp : p.Ok) :
    ∃ r', exec E ⟨some r, c⟩ p = some ⟨some r', cacheStep E c r.len p⟩ ∧
      Wrote E.N r r' (primPut (textsOf E c) E.N r.len p) := by
  have guard : ∀ (g : Prop) [Decidable g] (o : Option Rec) (t : List Char),
      (g → ∃ r', o = some r' ∧ Wrote E.N r r' t) →
      ∃ r', (if g then o.map (fun r => (⟨some r, c⟩ : Strm)) else some ⟨some r, c⟩) = some ⟨some r', c⟩ ∧
        Wrote E.N r r' (if g then t else []) := by
    intro g _ o t hg
    by_cases hgg : g
    · obtain ⟨r', e, w⟩ := hg hgg
      exact ⟨r', by rw [if_pos hgg, e]; rfl, by rw [if_pos hgg]; exact w⟩
    · exact ⟨r, by rw [if_neg hgg], by rw [if_neg hgg]; exact .refl h hl⟩
  cases p with
  | buf s =>
    obtain ⟨r', e, w⟩ := writeBuffer_wrote s h hl
    exact ⟨r', by simp [exec, e, cacheStep], w⟩
  | hexRow bs =>
    obtain ⟨r', e, w⟩ := hexRow_wrote bs r h hl hp
    exact ⟨r', by simp [exec, e, cacheStep], w⟩
  | ull w n =>
    have hlen : (padLeft w.toNat (numeral 10 n)).length ≤ 30 := by
      rw [padLeft_length]
      have := numeral_length_u64 n hp.2
      have := hp.1
      omega
    exact guard (r.len + 30 ≤ E.N) _ _ fun hg =>
      fmt_wrote h (unsigned_emits w hp.1 _ _ n hp.2 (by omega)) (by simp only [primText]; omega)
  | ll w n =>
    have hlen := signedWide_length w hp.1 n hp.2.1 hp.2.2
    exact guard (r.len + 30 ≤ E.N) _ _ fun hg =>
      fmt_wrote h (signed_emits w hp.1 _ _ n hp.2.1 hp.2.2 (by omega)) (by simp only [primText]; omega)
  | ptr q =>
    have hlen := pointer_length q hp
    exact guard (r.len + 30 ≤ E.N) _ _ fun hg =>
      fmt_wrote h (writePointer_emits _ _ q hp (by omega)) (by simp only [primText]; omega)
  | ptrIf8 q =>
    have hlen := pointer_length q hp
    have := guard (r.len + 30 ≤ E.N) (r.fmt (fun b d => writePointer b d (ptrOf q))) _ fun hg =>
      fmt_wrote h (writePointer_emits _ _ q hp (by omega)) (by omega)
    by_cases h8 : r.len + 8 ≤ E.N
    · simp only [exec]
      rw [if_pos h8]
      exact this
    · simp only [exec]
      rw [if_neg h8]
      have h30 : ¬ r.len + 30 ≤ E.N := by omega
      refine ⟨r, rfl, ?_⟩
      have : primPut (textsOf E c) E.N r.len (.ptrIf8 q) = [] := by
        unfold primPut; exact if_neg h30
      rw [this]
      exact .refl h hl
  | dbl d =>
    have hlen := doubleText_length E.lib hlib d hp
    exact guard (r.len + 30 ≤ E.N) _ _ fun hg =>
      fmt_wrote h (writeDouble_emits E.lib hlib d hp _ _ (by omega)) (by show r.len + (doubleText E.lib d).length ≤ _; omega)
  | blank n =>
    exact guard (r.len + n < E.N) _ _ fun hg =>
      blankLoop_wrote (n - r.len) r h (by omega)
  | percent d =>
    have hd := times100_ok hp
    have hlen := doubleText_length E.lib hlib _ hd
    have hpt : primText (textsOf E c) r.len (.percent d) = _ := percentText_eq (textsOf E c) hp
    by_cases hs : d.below1em6 = true
    · rw [if_pos hs] at hpt
      simp only [exec, if_pos hs]
      unfold primPut
      simp only [hpt]
      refine guard (r.len + 40 < E.N) _ _ fun hg => ?_
      obtain ⟨r', e', w⟩ := writeBuffer_wrote "00.00%".toList h hl
      rw [List.take_of_length_le (by show 6 ≤ _; omega)] at w
      exact ⟨r', e', w⟩
    · rw [if_neg hs] at hpt
      replace hpt : _ = doubleText E.lib d.times100 ++ ['%'] := hpt
      simp only [exec, if_neg hs]
      unfold primPut
      simp only [hpt]
      refine guard (r.len + 40 < E.N) _ _ fun hg => ?_
      obtain ⟨r1, e1, w1⟩ := fmt_wrote (f := fun b x => writeDouble E.lib b x d.times100) h
        (writeDouble_emits E.lib hlib _ hd _ _ (by omega)) (by omega)
      have l1 := w1.len
      obtain ⟨r2, e2, w2⟩ := push_wrote (t := ['%']) w1.size (by rw [l1]; simp only [List.length_cons, List.length_nil]; omega)
      exact ⟨r2, by rw [e1]; exact e2, w1.trans w2⟩
  | stamp ts ms =>
    simp only [exec]
    by_cases hg : r.len + 40 < E.N
    · rw [if_pos hg]
      have hb := refreshDate_bounds hz hc ts
      have hlen := dateParts_length (d := (refreshDate E.zone c ts).1.date) (s := (refreshDate E.zone c ts).2) ms
        hb.1 hb.2.1 hb.2.2.1 hb.2.2.2.1 hb.2.2.2.2.1 hb.2.2.2.2.2
      obtain ⟨b', e', hbl, ht⟩ := writeDate_emits E.zone c r.content r.len ts ms _ _
        (refreshDate E.zone c ts).2 (refreshDate E.zone c ts).1 rfl rfl rfl (by omega)
      rw [e']
      have hout : (dateOut (refreshDate E.zone c ts).1.date (refreshDate E.zone c ts).2 ms).length ≤ 39 := by
        unfold dateOut; split
        · omega
        · exact Nat.zero_le _
      refine ⟨⟨b', r.len + (dateOut (refreshDate E.zone c ts).1.date (refreshDate E.zone c ts).2 ms).length⟩,
        by simp [cacheStep, hg], ?_⟩
      have : primPut (textsOf E c) E.N r.len (.stamp ts ms) =
          dateOut (refreshDate E.zone c ts).1.date (refreshDate E.zone c ts).2 ms := by
        unfold primPut; exact if_pos hg
      rw [this]
      exact ⟨by rw [hbl, h], rfl, by
        show r.len + (dateOut (refreshDate E.zone c ts).1.date (refreshDate E.zone c ts).2 ms).length ≤ _
        omega, ht⟩
    · rw [if_neg hg]
      refine ⟨r, by simp [cacheStep, hg], ?_⟩
      have : primPut (textsOf E c) E.N r.len (.stamp ts ms) = [] := by
        unfold primPut; exact if_neg hg
      rw [this]
      exact .refl h hl

/-! ## Sequences -/

/-- A stream that is open on a record of `N` bytes. -/
def Strm.Open (E : Env) (s : Strm) (r : Rec) : Prop :=
  s.data = some r ∧ r.content.length = E.N ∧ r.len ≤ E.N ∧ CacheFrom E.zone s.cache

theorem execAll_append (E : Env) (s : Strm) (ps qs : List Prim) :
    execAll E s (ps ++ qs) = (execAll E s ps).bind (fun s => execAll E s qs) := by
  induction ps generalizing s with
  | nil => rfl
  | cons p ps ih =>
    simp only [List.cons_append, execAll, Option.bind_eq_bind, Option.bind_assoc]
    congr 1
    funext s'
    exact ih s'

/-- The pieces that a sequence of primitive writes adds from column `col` on, the date cache being `c`. -/
def putAll (E : Env) : DateCache → Nat → List Prim → List (List Char)
  | _, _, [] => []
  | c, col, p :: ps =>
    primPut (textsOf E c) E.N col p ::
      putAll E (cacheStep E c col p) (col + (primPut (textsOf E c) E.N col p).length) ps

theorem execAll_wrote (E : Env) (hlib : E.lib.Sane) (hz : E.zone.Sane) (ps : List Prim) :
    ∀ (r : Rec) (c : DateCache), r.content.length = E.N → r.len ≤ E.N → CacheFrom E.zone c →
      (∀ p ∈ ps, p.Ok) →
      ∃ r' c', execAll E ⟨some r, c⟩ ps = some ⟨some r', c'⟩ ∧ CacheFrom E.zone c' ∧
        Wrote E.N r r' (putAll E c r.len ps).flatten := by
  induction ps with
  | nil => intro r c h hl hc _; exact ⟨r, c, rfl, hc, .refl h hl⟩
  | cons p ps ih =>
    intro r c h hl hc hok
    obtain ⟨r1, e1, w1⟩ := exec_wrote E hlib hz r c p h hl hc (hok p (by simp))
    obtain ⟨r2, c2, e2, hc2, w2⟩ := ih r1 (cacheStep E c r.len p) w1.size w1.bound (cacheStep_from hc _ _)
      (fun q hq => hok q (by simp [hq]))
    refine ⟨r2, c2, ?_, hc2, ?_⟩
    · unfold execAll; rw [e1]; exact e2
    · rw [w1.len] at w2
      exact w1.trans w2

/-- Streaming on a refused stream. -/
theorem execAll_none (E : Env) (c : DateCache) (ps : List Prim) :
    execAll E ⟨none, c⟩ ps = some ⟨none, c⟩ := by
  induction ps with
  | nil => rfl
  | cons p ps ih => unfold execAll; exact ih

/-- The text of a sequence of primitive writes. -/
def primsText (T : Texts) : Nat → List Prim → List Char
  | _, [] => []
  | col, p :: ps => primText T col p ++ primsText T (col + (primText T col p).length) ps

/-- The dates of a sequence come out right, whatever happened before. -/
def DatesOk (E : Env) (T : Texts) (ps : List Prim) : Prop :=
  T.dbl = doubleText E.lib ∧
  ∀ ts ms, .stamp ts ms ∈ ps → ∀ c, CacheFrom E.zone c →
    dateOut (refreshDate E.zone c ts).1.date (refreshDate E.zone c ts).2 ms = T.date ts ms

theorem primText_textsOf {E : Env} {T : Texts} {c : DateCache} (hc : CacheFrom E.zone c) {p : Prim}
    (h : DatesOk E T [p]) (col : Nat) : primText (textsOf E c) col p = primText T col p := by
  cases p with
  | stamp ts ms => exact h.2 ts ms (by simp) c hc
  | dbl d => simp only [primText, textsOf, h.1]
  | percent d => cases d <;> simp only [primText, percentText, textsOf, h.1]
  | _ => rfl

/-- With 40 bytes to spare (and room for the alignments) everything is written in full. -/
theorem putAll_full (E : Env) (T : Texts) (ps : List Prim) : ∀ (c : DateCache) (col : Nat),
    CacheFrom E.zone c → DatesOk E T ps → (∀ p ∈ ps, p.Ok) →
    col + (primsText T col ps).length + 40 < E.N →
    (∀ n, .blank n ∈ ps → col + (primsText T col ps).length + n < E.N) →
    (putAll E c col ps).flatten = primsText T col ps := by
  induction ps with
  | nil => intros; rfl
  | cons p ps ih =>
    intro c col hc hd hok hroom hbl
    have hT := primText_textsOf hc (p := p) ⟨hd.1, fun ts ms hm => hd.2 ts ms (by simp at hm; simp [hm])⟩ col
    simp only [primsText, List.length_append] at hroom hbl
    have hp : primPut (textsOf E c) E.N col p = primText T col p := by
      rw [← hT]
      rw [← hT] at hroom hbl
      unfold primPut
      split
      · next s => exact List.take_of_length_le (by simp only [primText] at hroom; omega)
      · next bs =>
        have hbs := hok _ List.mem_cons_self
        have hlen : ∀ l : List Nat, (∀ x ∈ l, 0 < x ∧ x < 256) → (l.flatMap hexByte).length = 3 * l.length := by
          intro l
          induction l with
          | nil => intro _; rfl
          | cons x l ihl =>
            intro hl
            rw [List.flatMap_cons, List.length_append, hexByte_length (hl x (by simp)).2,
              ihl (fun y hy => hl y (by simp [hy])), List.length_cons]
            omega
        simp only [primText] at hroom ⊢
        have := hlen bs hbs
        rw [List.take_of_length_le (by unfold hexCount; omega)]
      · apply if_pos
        cases p with
        | blank n => have := hbl n (by simp); simp only [Prim.room]; omega
        | _ => simp only [Prim.room]; omega
    have := ih (cacheStep E c col p) (col + (primText T col p).length) (cacheStep_from hc _ _)
      ⟨hd.1, fun ts ms hm => hd.2 ts ms (by simp [hm])⟩ (fun q hq => hok q (by simp [hq]))
      (by omega) (fun n hn => by have := hbl n (by simp [hn]); omega)
    unfold putAll
    rw [hp, List.flatten_cons, this]
    rfl

/-! ## The texts of values -/

theorem primsText_append (T : Texts) (ps qs : List Prim) : ∀ col, primsText T col (ps ++ qs) =
    primsText T col ps ++ primsText T (col + (primsText T col ps).length) qs := by
  induction ps with
  | nil => intro col; rfl
  | cons p ps ih =>
    intro col
    simp only [List.cons_append, primsText, ih, List.append_assoc, List.length_append, Nat.add_assoc]

theorem primsText_single (T : Texts) (col : Nat) (p : Prim) : primsText T col [p] = primText T col p := by
  simp [primsText]

/-- No column-dependent piece. -/
def NoBlank (ps : List Prim) : Prop := ∀ n, .blank n ∉ ps

theorem primsText_noBlank (T : Texts) (ps : List Prim) (h : NoBlank ps) : ∀ col,
    primsText T col ps = ps.flatMap (primText T 0) := by
  induction ps with
  | nil => intro col; rfl
  | cons p ps ih =>
    intro col
    have hp : primText T col p = primText T 0 p := by
      cases p with
      | blank n => exact absurd (by simp) (h n)
      | _ => rfl
    rw [primsText, List.flatMap_cons, hp, ih (fun n hn => h n (by simp [hn]))]

theorem charByte_prims (T : Texts) (row : List Nat) :
    (row.flatMap (fun x => if isPrint x then [Prim.buf [' '], .buf [Char.ofNat x], .buf [' ']]
      else [.buf " . ".toList])).flatMap (primText T 0) = row.flatMap charByte := by
  induction row with
  | nil => rfl
  | cons x row ih =>
    rw [List.flatMap_cons, List.flatMap_append, ih, List.flatMap_cons]
    congr 1
    have : isPrint x = true ↔ (32 ≤ x ∧ x ≤ 126) := by
      simp only [isPrint, Bool.and_eq_true, decide_eq_true_eq]; omega
    unfold charByte
    by_cases h : isPrint x = true
    · rw [if_pos h, if_pos (this.mp h)]; rfl
    · rw [if_neg h, if_neg (fun h' => h (this.mpr h'))]; rfl

theorem binaryRow_text (T : Texts) (addr i : Nat) (bytes : List Nat) :
    (binaryRow addr i bytes).flatMap (primText T 0) = dumpRow (addr + i * 32) ((bytes.drop (i * 32)).take 32) := by
  unfold binaryRow dumpRow
  simp only [List.flatMap_append, charByte_prims]
  simp only [List.flatMap_cons, List.flatMap_nil, primText, List.append_nil, List.append_assoc]

theorem binaryRow_noBlank (addr i : Nat) (bytes : List Nat) : NoBlank (binaryRow addr i bytes) := by
  intro n hn
  unfold binaryRow at hn
  simp only [List.mem_append, List.mem_cons, List.mem_flatMap, List.not_mem_nil, reduceCtorEq, or_false,
    false_or] at hn
  obtain ⟨x, _, hx⟩ := hn
  split at hx <;> simp at hx

theorem dumpRows_range (addr : Nat) (bytes : List Nat) :
    (List.range (bytes.length / 32 + 1)).flatMap
      (fun i => dumpRow (addr + i * 32) ((bytes.drop (i * 32)).take 32)) = dumpRows addr bytes := by
  generalize hn : bytes.length = n
  induction n using Nat.strongRecOn generalizing addr bytes with
  | ind n ih =>
    rw [dumpRows]
    split
    · next h =>
      have e : n / 32 = (n - 32) / 32 + 1 := by omega
      rw [e, List.range_succ_eq_map, List.flatMap_cons, List.flatMap_map]
      rw [← ih (n - 32) (by omega) (addr + 32) (bytes.drop 32) (by rw [List.length_drop, hn])]
      simp only [Nat.zero_mul, Nat.add_zero, List.drop_zero]
      congr 2
      funext i
      have e1 : addr + i.succ * 32 = addr + 32 + i * 32 := by omega
      have e2 : i.succ * 32 = 32 + i * 32 := by omega
      rw [List.drop_drop, e1, e2]
    · next h =>
      have e : n / 32 = 0 := by omega
      rw [e]
      rw [show List.range (0 + 1) = [0] from rfl, List.flatMap_cons, List.flatMap_nil, List.append_nil]
      simp only [Nat.zero_mul, List.drop_zero, Nat.add_zero]
      rw [List.take_of_length_le (by omega)]

theorem binaryPrims_text (T : Texts) (col addr : Nat) (bytes : List Nat) :
    primsText T col (binaryPrims addr bytes) =
      "\r\n\t[".toList ++ dumpRows addr bytes ++ "\r\n\t]\r\n\t".toList := by
  rw [primsText_noBlank]
  · unfold binaryPrims
    rw [List.flatMap_append, List.flatMap_append, List.flatMap_assoc]
    simp only [binaryRow_text]
    rw [dumpRows_range]
    rfl
  · intro n hn
    unfold binaryPrims at hn
    simp only [List.mem_append, List.mem_cons, List.mem_flatMap, List.not_mem_nil, reduceCtorEq, or_false,
      false_or] at hn
    obtain ⟨i, _, hi⟩ := hn
    exact binaryRow_noBlank _ _ _ n hi

theorem intercalate_cons (sep t : List Char) (ts : List (List Char)) :
    List.intercalate sep (t :: ts) = t ++ ts.flatMap (sep ++ ·) := by
  induction ts generalizing t with
  | nil => simp [List.intercalate]
  | cons u us ih =>
    rw [List.flatMap_cons, List.append_assoc, ← ih u]
    simp [List.intercalate]

theorem containerLoop_tail (T : Texts) (es : List Val)
    (h : ∀ v ∈ es, ∀ col, Val.text T col v = primsText T col v.prims) : ∀ (k col : Nat), 0 < k → k ≤ 5 →
    primsText T col (containerLoop k (Val.primsList es)) =
      ((Val.texts T (col + 2) es).take (5 - k)).flatMap (", ".toList ++ ·) ++
        (if 5 - k < es.length then "..., ".toList else []) := by
  induction es with
  | nil => intro k col _ _; simp [Val.primsList, containerLoop, primsText, Val.texts]
  | cons v es ih =>
    intro k col h0 h5
    simp only [Val.primsList, containerLoop, Val.texts]
    by_cases hk : k ≥ 5
    · have e : 5 - k = 0 := by omega
      rw [if_pos hk, e, if_pos (by simp)]
      simp [primsText, primText]
    · obtain ⟨j, hj⟩ : ∃ j, 5 - k = j + 1 := ⟨4 - k, by omega⟩
      have hj' : 5 - (k + 1) = j := by omega
      rw [if_neg hk, if_pos h0, primsText_append, primsText_append, primsText_single, hj, List.take_succ_cons,
        List.flatMap_cons, ← h v (by simp)]
      rw [ih (fun w hw => h w (by simp [hw])) (k + 1) _ (by omega) (by omega), hj']
      have e1 : ∀ x y, (primText T x (.buf y)) = y := fun _ _ => rfl
      have e2 : ", ".toList.length = 2 := rfl
      have e3 : col + (", ".toList ++ Val.text T (col + 2) v).length + 2 =
          col + 2 + (Val.text T (col + 2) v).length + 2 := by rw [List.length_append, e2]; omega
      simp only [e1, e2]
      rw [e3]
      have e4 : (if j + 1 < (v :: es).length then "..., ".toList else []) =
          if j < es.length then "..., ".toList else [] := by simp
      rw [e4]
      simp only [List.append_assoc]

theorem containerLoop_text (T : Texts) (es : List Val)
    (h : ∀ v ∈ es, ∀ col, Val.text T col v = primsText T col v.prims) (col : Nat) :
    primsText T col (containerLoop 0 (Val.primsList es)) = containerBody (Val.texts T col es) := by
  have hlen : ∀ (l : List Val) (col : Nat), (Val.texts T col l).length = l.length := by
    intro l
    induction l with
    | nil => intro _; rfl
    | cons v l ih => intro col; simp only [Val.texts, List.length_cons, ih]
  unfold containerBody
  rw [hlen]
  cases es with
  | nil => rfl
  | cons v es =>
    simp only [Val.primsList, containerLoop, Val.texts]
    rw [if_neg (by omega), if_neg (by omega), List.nil_append, primsText_append,
      containerLoop_tail T es (fun w hw => h w (by simp [hw])) 1 _ (by omega) (by omega),
      ← h v (by simp), List.take_succ_cons, intercalate_cons]
    have e4 : (if 5 < (v :: es).length then "..., ".toList else []) =
        if 5 - 1 < es.length then "..., ".toList else [] := by
      rw [List.length_cons]
      by_cases h6 : 5 < es.length + 1
      · rw [if_pos h6, if_pos (by omega)]
      · rw [if_neg h6, if_neg (by omega)]
    rw [e4, List.append_assoc]

theorem signedWide_zero (n : Int) : signedWide 0 n = decimal n := by
  unfold signedWide decimal
  have hp : ∀ k : Nat, padLeft ((0 : Int) - 1).toNat (numeral 10 k) = numeral 10 k :=
    fun k => padLeft_of_le (by show 0 ≤ _; omega)
  have hp0 : ∀ k : Nat, padLeft (0 : Int).toNat (numeral 10 k) = numeral 10 k :=
    fun k => padLeft_of_le (by show 0 ≤ _; omega)
  rw [hp, hp0]

theorem padLeft_zero (s : List Char) : padLeft (0 : Int).toNat s = s := padLeft_of_le (by show 0 ≤ _; omega)

mutual
/-- The primitive writes of a value together produce its text. -/
theorem val_text (T : Texts) : ∀ (v : Val) (col : Nat), Val.text T col v = primsText T col v.prims
  | .cstr none, col => by simp [Val.text, Val.prims, primsText, primText]
  | .cstr (some s), col => by simp [Val.text, Val.prims, primsText, primText]
  | .str s, col => by simp [Val.text, Val.prims, primsText, primText]
  | .chr c, col => by simp [Val.text, Val.prims, primsText, primText]
  | .bool v, col => by simp [Val.text, Val.prims, primsText, primText]
  | .int n, col => by
    simp only [Val.text, Val.prims, primsText, primText, List.append_nil, signedWide_zero]
  | .uns n, col => by
    simp only [Val.text, Val.prims, primsText, primText, List.append_nil, padLeft_zero]
  | .intW w n, col => by simp [Val.text, Val.prims, primsText, primText]
  | .unsW w n, col => by simp [Val.text, Val.prims, primsText, primText]
  | .dbl d, col => by simp [Val.text, Val.prims, primsText, primText]
  | .ptr p, col => by simp [Val.text, Val.prims, primsText, primText]
  | .pair a b, col => by
    simp only [Val.text, Val.prims, primsText_append, primsText_single, primText, ← val_text T a,
      ← val_text T b, List.length_append, List.length_cons, List.length_nil]
    have e : col + (0 + 1 + (Val.text T (col + (0 + 1)) a).length + (0 + 1)) =
      col + 1 + (Val.text T (col + 1) a).length + 1 := by simp only [Nat.zero_add]; omega
    rw [e]
  | .container name es, col => by
    have h := vals_text T es
    simp only [Val.text, Val.prims, primsText_append, primsText_single, containerLoop_text T es h]
    have e : primsText T col [.buf name, .buf ['('], .ull 0 es.length, .buf ")[".toList] =
        name ++ ['('] ++ numeral 10 es.length ++ ")[".toList := by
      simp only [primsText, primText, padLeft_zero, List.append_nil, List.append_assoc]
    rw [e]
    rfl
  | .blank n, col => by simp [Val.text, Val.prims, primsText, primText]
  | .percent d, col => by simp [Val.text, Val.prims, primsText, primText]
  | .stamp t p, col => by simp [Val.text, Val.prims, primsText, primText]
  | .binary a bs, col => by simp only [Val.text, Val.prims, binaryPrims_text]
theorem vals_text (T : Texts) : ∀ (es : List Val), ∀ v ∈ es, ∀ col, Val.text T col v = primsText T col v.prims
  | [], v, hv, _ => absurd hv (by simp)
  | w :: es, v, hv, col => by
    rcases List.mem_cons.mp hv with h | h
    · rw [h]; exact val_text T w col
    · exact vals_text T es v h col
end

theorem lineText_prims (T : Texts) (vs : List Val) : ∀ col,
    lineText T col vs = primsText T col (vs.flatMap Val.prims) := by
  induction vs with
  | nil => intro col; rfl
  | cons v vs ih =>
    intro col
    simp only [lineText]
    rw [List.flatMap_cons, primsText_append, ← val_text, ih]

/-! ## Admissible arguments -/

/-- The conditions on a primitive write. -/
def Prim.Fine (S : Int → Nat → Prop) (B : Nat → Prop) (p : Prim) : Prop :=
  p.Ok ∧ (∀ ts ms, p = .stamp ts ms → S ts ms) ∧ (∀ n, p = .blank n → B n)

theorem containerLoop_mem {p : Prim} (ls : List (List Prim)) : ∀ k, p ∈ containerLoop k ls →
    (∃ s, p = .buf s) ∨ ∃ l ∈ ls, p ∈ l := by
  induction ls with
  | nil => intro k h; exact absurd h (by simp [containerLoop])
  | cons l ls ih =>
    intro k h
    unfold containerLoop at h
    split at h
    · exact Or.inl ⟨_, by simpa using h⟩
    · rcases List.mem_append.mp h with h | h
      · rcases List.mem_append.mp h with h | h
        · split at h
          · exact Or.inl ⟨_, by simpa using h⟩
          · exact absurd h (by simp)
        · exact Or.inr ⟨l, by simp, h⟩
      · rcases ih _ h with h | ⟨l', h1, h2⟩
        · exact Or.inl h
        · exact Or.inr ⟨l', by simp [h1], h2⟩

theorem Prim.fine_buf (S : Int → Nat → Prop) (B : Nat → Prop) (s : List Char) : (Prim.buf s).Fine S B :=
  ⟨trivial, fun _ _ h => (by cases h), fun _ h => (by cases h)⟩

theorem binaryRow_fine (S : Int → Nat → Prop) (B : Nat → Prop) (a i : Nat) (bs : List Nat)
    (hi : i < bs.length / 32 + 1) (h : a + bs.length < 2 ^ 64) (hb : ∀ x ∈ bs, 0 < x ∧ x < 256) :
    ∀ p ∈ binaryRow a i bs, p.Fine S B := by
  intro p hp
  have ha : a + i * 32 < 2 ^ 64 := by omega
  unfold binaryRow at hp
  simp only [List.mem_append, List.mem_cons, List.mem_flatMap, List.not_mem_nil, or_false] at hp
  rcases hp with ((rfl | rfl | rfl) | ⟨x, _, hx⟩) | (rfl | rfl | rfl | rfl)
  · exact Prim.fine_buf S B _
  · exact ⟨ha, fun _ _ h => (by cases h), fun _ h => (by cases h)⟩
  · exact Prim.fine_buf S B _
  · split at hx
    · simp only [List.mem_cons, List.not_mem_nil, or_false] at hx
      rcases hx with rfl | rfl | rfl <;> exact Prim.fine_buf S B _
    · simp only [List.mem_cons, List.not_mem_nil, or_false] at hx
      rw [hx]; exact Prim.fine_buf S B _
  · exact Prim.fine_buf S B _
  · exact ⟨ha, fun _ _ h => (by cases h), fun _ h => (by cases h)⟩
  · exact Prim.fine_buf S B _
  · exact ⟨fun x hx => hb x (List.mem_of_mem_drop (List.mem_of_mem_take hx)), fun _ _ h => (by cases h), fun _ h => (by cases h)⟩

theorem single_fine {S : Int → Nat → Prop} {B : Nat → Prop} {q : Prim} (h : q.Fine S B) :
    ∀ p ∈ [q], p.Fine S B := by
  intro p hp
  simp only [List.mem_cons, List.not_mem_nil, or_false] at hp
  rw [hp]; exact h

mutual
theorem val_fine (S : Int → Nat → Prop) (B : Nat → Prop) : ∀ (v : Val), Val.All (Val.Fine S B) v →
    ∀ p ∈ v.prims, p.Fine S B
  | .cstr none, h => by simpa only [Val.prims] using single_fine (Prim.fine_buf S B _)
  | .cstr (some s), h => by simpa only [Val.prims] using single_fine (Prim.fine_buf S B _)
  | .str s, h => by simpa only [Val.prims] using single_fine (Prim.fine_buf S B _)
  | .chr c, h => by simpa only [Val.prims] using single_fine (Prim.fine_buf S B _)
  | .bool v, h => by simpa only [Val.prims] using single_fine (Prim.fine_buf S B _)
  | .int n, h => by
    simp only [Val.prims, Val.All, Val.Fine] at h ⊢
    exact single_fine ⟨⟨by omega, h⟩, fun _ _ h => (by cases h), fun _ h => (by cases h)⟩
  | .uns n, h => by
    simp only [Val.prims, Val.All, Val.Fine] at h ⊢
    exact single_fine ⟨⟨by omega, h⟩, fun _ _ h => (by cases h), fun _ h => (by cases h)⟩
  | .intW w n, h => by
    simp only [Val.prims, Val.All, Val.Fine] at h ⊢
    exact single_fine ⟨h, fun _ _ h => (by cases h), fun _ h => (by cases h)⟩
  | .unsW w n, h => by
    simp only [Val.prims, Val.All, Val.Fine] at h ⊢
    exact single_fine ⟨h, fun _ _ h => (by cases h), fun _ h => (by cases h)⟩
  | .dbl d, h => by
    simp only [Val.prims, Val.All] at h ⊢
    refine single_fine ⟨?_, fun _ _ h => (by cases h), fun _ h => (by cases h)⟩
    cases d with
    | fin neg m e => exact h
    | _ => trivial
  | .ptr p, h => by
    simp only [Val.prims, Val.All, Val.Fine] at h ⊢
    exact single_fine ⟨h, fun _ _ h => (by cases h), fun _ h => (by cases h)⟩
  | .pair a b, h => by
    simp only [Val.All] at h
    have ha := val_fine S B a h.2.1
    have hb := val_fine S B b h.2.2
    intro p hp
    simp only [Val.prims, List.mem_append] at hp
    rcases hp with (((hp | hp) | hp) | hp) | hp
    · exact single_fine (Prim.fine_buf S B _) p hp
    · exact ha p hp
    · exact single_fine (Prim.fine_buf S B _) p hp
    · exact hb p hp
    · exact single_fine (Prim.fine_buf S B _) p hp
  | .container name es, h => by
    simp only [Val.All] at h
    have hes := vals_fine S B es h.2
    intro p hp
    simp only [Val.prims, List.mem_append, List.mem_cons, List.not_mem_nil, or_false] at hp
    rcases hp with ((rfl | rfl | rfl | rfl) | hp) | rfl
    · exact Prim.fine_buf S B _
    · exact Prim.fine_buf S B _
    · exact ⟨⟨by omega, h.1⟩, fun _ _ h => (by cases h), fun _ h => (by cases h)⟩
    · exact Prim.fine_buf S B _
    · rcases containerLoop_mem _ _ hp with ⟨s, rfl⟩ | ⟨l, h1, h2⟩
      · exact Prim.fine_buf S B _
      · exact hes l h1 p h2
    · exact Prim.fine_buf S B _
  | .blank n, h => by
    simp only [Val.prims, Val.All, Val.Fine] at h ⊢
    exact single_fine ⟨trivial, fun _ _ h => (by cases h), fun _ h' => by cases h'; exact h⟩
  | .percent d, h => by
    simp only [Val.prims, Val.All] at h ⊢
    exact single_fine ⟨(by cases d <;> first | exact h | trivial), fun _ _ h => (by cases h), fun _ h => (by cases h)⟩
  | .stamp t p, h => by
    simp only [Val.prims, Val.All, Val.Fine] at h ⊢
    exact single_fine ⟨trivial, fun _ _ h' => (by cases h'; exact h), fun _ h' => by cases h'⟩
  | .binary a bs, h => by
    simp only [Val.All, Val.Fine] at h
    intro p hp
    simp only [Val.prims, binaryPrims, List.mem_append, List.mem_cons, List.not_mem_nil, or_false, List.mem_flatMap,
      List.mem_range] at hp
    rcases hp with (rfl | ⟨i, hi, hp⟩) | rfl
    · exact Prim.fine_buf S B _
    · exact binaryRow_fine S B a i bs hi h.1 h.2 p hp
    · exact Prim.fine_buf S B _
theorem vals_fine (S : Int → Nat → Prop) (B : Nat → Prop) : ∀ (es : List Val), Val.AllIn (Val.Fine S B) es →
    ∀ l ∈ Val.primsList es, ∀ p ∈ l, p.Fine S B
  | [], _, l, hl => absurd hl (by simp [Val.primsList])
  | v :: vs, h, l, hl => by
    simp only [Val.AllIn] at h
    simp only [Val.primsList, List.mem_cons] at hl
    rcases hl with rfl | hl
    · exact val_fine S B v h.1
    · exact vals_fine S B vs h.2 l hl
end

theorem line_fine {S : Int → Nat → Prop} {B : Nat → Prop} {vs : List Val}
    (h : ∀ v ∈ vs, Val.All (Val.Fine S B) v) : ∀ p ∈ vs.flatMap Val.prims, p.Fine S B := by
  intro p hp
  obtain ⟨v, hv, hp⟩ := List.mem_flatMap.mp hp
  exact val_fine S B v (h v hv) p hp

/-! ## Dates -/

/-- A timestamp whose date is printed as the local date (C36). -/
def Zone.Plain (z : Zone) (t : Int) (ms : Nat) : Prop :=
  (t < 0 ∨ 86400 ≤ t) ∧ (z.localtime t).Sane ∧ ms < 1000

theorem dateOut_plain {z : Zone} (hu : z.Uniform) (hc : z.Covers) {t : Int} {ms : Nat} (h : z.Plain t ms)
    {c : DateCache} (hcc : CacheFrom z c) :
    dateOut (refreshDate z c t).1.date (refreshDate z c t).2 ms = localDate z t ms ∧
      (localDate z t ms).length = 23 := by
  obtain ⟨ht, hd, hms⟩ := h
  obtain ⟨c', s, hr, s0, s1, hy, hm, hdd, hs⟩ := refreshDate_correct z hu hc c t hcc ht
  have hsane : c'.date.Sane := ⟨by rw [hy]; exact hd.year, by rw [hm]; exact hd.mon, by rw [hdd]; exact hd.mday⟩
  obtain ⟨h1, h2⟩ := parts_text c'.date hsane s s0 s1 ms hms
  rw [hr]
  have hcu := hc t
  obtain ⟨_, _, _, _, q1, q2, q3, q4, q5⟩ := hu t t hcu.1 hcu.2
  have e : civilOf c'.date s = localCivil z t := by
    unfold civilOf localCivil
    rw [hy, hm, hdd]
    have e1 : s / 3600 = (z.localtime t).hour := by omega
    have e2 : s % 3600 / 60 = (z.localtime t).min := by omega
    have e3 : s % 60 = (z.localtime t).sec := by omega
    rw [e1, e2, e3]
  have ht : dateText (civilOf c'.date s) ms = localDate z t ms := by rw [e]; rfl
  refine ⟨?_, ?_⟩
  · unfold dateOut; simp only; rw [if_pos h2, h1, ht]
  · rw [← ht, ← h1, h2]

theorem fixedZone_sane (o : Int) : (fixedZone o).Sane := by
  have hr : ∀ n, 1 ≤ (dateOfDays n).2.1 ∧ (dateOfDays n).2.1 ≤ 12 ∧ 1 ≤ (dateOfDays n).2.2 ∧ (dateOfDays n).2.2 ≤ 31 := by
    intro n
    have hz1 := Int.emod_nonneg (n + 719468) (b := 146097) (by omega)
    have hz2 := Int.emod_lt_of_pos (n + 719468) (b := 146097) (by omega)
    obtain ⟨_, _, h3, h4, _⟩ := doeSplit_spec ((n + 719468) % 146097) hz1 hz2
    unfold dateOfDays
    simp only
    obtain ⟨d, hd⟩ : ∃ d, d = (doeSplit ((n + 719468) % 146097)).2 := ⟨_, rfl⟩
    rw [← hd] at h3 h4 ⊢
    obtain ⟨mp, hmp⟩ : ∃ mp, mp = (5 * d + 2) / 153 := ⟨_, rfl⟩
    rw [← hmp]
    split <;> omega
  refine ⟨fun t => ?_, fun t => ?_, fun t => ?_⟩
  · have := hr ((t + o) / 86400)
    show 0 ≤ (dateOfDays ((t + o) / 86400)).2.1 - 1 ∧ (dateOfDays ((t + o) / 86400)).2.1 - 1 < 12
    omega
  · have := hr ((t + o) / 86400)
    show 0 ≤ (dateOfDays ((t + o) / 86400)).2.2 ∧ (dateOfDays ((t + o) / 86400)).2.2 ≤ 31
    omega
  · rw [fixedZone_midnight]; omega

end FNLog
