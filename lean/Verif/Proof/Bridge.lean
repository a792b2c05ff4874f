import Verif.Props.Statement
import Verif.Spec.Bridge

/-! # Proofs about forwarding -/

namespace FNLog
open Spec

/-- Transmission to another channel. -/
theorem transmit_live {S : Setup} (hS : Ready S) {junk : List Char} {h : Head} {r : Rec} {s : Sys}
    (hN : 2 ≤ S.env.N) (hj : junk.length = S.env.N) (hr : r.content.length = S.env.N) (hlen : r.len ≤ S.env.N)
    (hl : Live S.cfg S.thread s.ring) (hd : ChanDefined S.channel h.category h.identify)
    (hc : h.channelId ≠ S.channel.id) (ha : Admitted S.lg S.channel.id h.priority h.category h.identify)
    (hp : 0 ≤ h.priority ∧ h.priority ≤ 6) :
    ∃ s', transmit S h.category h.identify junk h r s = some s' ∧ Live S.cfg S.thread s'.ring ∧
      s'.ring.out = s.ring.out ++ [(s.ring.out.length, cellOf (copyHead S h) (lineOf S.env.N (r.content.take r.len)))] ∧
      deliver S s.ring.out.length (cellOf (copyHead S h) (lineOf S.env.N (r.content.take r.len))) s.out = some s'.out ∧
      s'.hooked = s.hooked := by
  obtain ⟨channels, hshm, hch⟩ := hS.channel
  obtain ⟨b, hb⟩ := C01_block_input_defined S.lg S.channel.id h.priority h.category h.identify (by
    intro chans e x _ h2
    rw [hshm] at e
    obtain rfl := Option.some.inj e
    rw [hch] at h2
    obtain rfl := Option.some.inj h2
    exact hd)
  have hbf : b = false := (admitted_iff hb).mpr ha
  subst hbf
  have h1 : 0 + (r.content.take r.len).length ≤ junk.length := by
    rw [List.length_take]; omega
  have htr : transRec junk r = some ⟨put junk 0 (r.content.take r.len), r.len⟩ := by
    unfold transRec
    rw [writeAt_put h1]
    rfl
  have htext : (put junk 0 (r.content.take r.len)).take r.len = r.content.take r.len := by
    unfold put
    have : (r.content.take r.len).length = r.len := by rw [List.length_take]; omega
    simp only [List.take_zero, List.nil_append]
    rw [List.take_append_of_le_length (by omega), List.take_of_length_le (by omega)]
  have hh : transHead S.channel.id h.category h.identify h = copyHead S h := rfl
  obtain ⟨ring, p1, p2, p3⟩ := pushRecord_live hS (h := copyHead S h)
    (r := ⟨put junk 0 (r.content.take r.len), r.len⟩) (s := s) hN (by show (put _ _ _).length = _; rw [put_length h1, hj]) hl
  rw [htext] at p2 p3
  obtain ⟨o', ho'⟩ := deliver_total hS (h := copyHead S h)
    (line := lineOf S.env.N (r.content.take r.len)) (n := s.ring.out.length) (o := s.out) hp hd.2
  rw [ho'] at p3
  refine ⟨{ s with ring := ring, out := o' }, ?_, p1, p2, ho', rfl⟩
  unfold transmit
  rw [if_neg hc, hb]
  simp only [Option.bind_eq_bind, Option.bind_some, Bool.false_eq_true, if_false]
  rw [htr, hh]
  exact p3

/-- The source part of the destructor is the destructor of `Model/Statement`. -/
theorem destructVia_fst {A B : Setup} {junk : List Char} {h : Head} {r : Rec} {sa sb sa' sb' : Sys}
    (e : destructVia A B junk h r sa sb = some (sa', sb')) : destructOk A h r sa = some sa' := by
  unfold destructVia at e
  unfold destructOk
  cases hf : hookFires A.hook A.channel h with
  | none => rw [hf] at e; cases e
  | some b =>
    rw [hf] at e
    simp only [Option.bind_eq_bind, Option.bind_some] at e ⊢
    cases b with
    | false =>
      simp only [Bool.false_eq_true, if_false] at e ⊢
      cases hp : pushRecord A h r sa with
      | none => rw [hp] at e; cases e
      | some x => rw [hp] at e; cases e; rfl
    | true =>
      simp only [if_true] at e ⊢
      cases hn : hookNul A.env.N r with
      | none => rw [hn] at e; cases e
      | some r1 =>
        rw [hn] at e
        simp only [Option.bind_some] at e ⊢
        cases hc : callHook A h r1 sa with
        | none => rw [hc] at e; cases e
        | some s1 =>
          rw [hc] at e
          simp only [Option.bind_some] at e ⊢
          cases ht : transmit B h.category h.identify junk h r1 sb with
          | none => rw [ht] at e; cases e
          | some s2 =>
            rw [ht] at e
            simp only [Option.bind_some] at e
            cases hp : pushRecord A h r1 s1 with
            | none => rw [hp] at e; cases e
            | some x => rw [hp] at e; cases e; rfl

/-- The destructor with the hook, and what the target gets. -/
theorem destructVia_live {A B : Setup} (hA : Ready A) (hB : Ready B) (hNN : A.env.N = B.env.N) {junk : List Char} {h : Head} {r : Rec} {sa sb : Sys}
    (hN : 2 ≤ A.env.N) (hj : junk.length = A.env.N) (hr : r.content.length = A.env.N) (hlen : r.len ≤ A.env.N)
    (hla : Live A.cfg A.thread sa.ring) (hlb : Live B.cfg B.thread sb.ring) (hp : 0 ≤ h.priority ∧ h.priority ≤ 6)
    (hd : ∀ d ∈ A.channel.devices, DevDefined d h.category h.identify) (hdb : ChanDefined B.channel h.category h.identify)
    (hc : h.channelId ≠ B.channel.id) :
    ∃ sa' sb', destructVia A B junk h r sa sb = some (sa', sb') ∧ Live A.cfg A.thread sa'.ring ∧ Live B.cfg B.thread sb'.ring ∧
      sa'.ring.out = sa.ring.out ++ [(sa.ring.out.length, cellOf h (lineOf A.env.N (r.content.take r.len)))] ∧ sa'.cache = sa.cache ∧
      sb'.hooked = sb.hooked ∧
      ((Forwards A B h ∧
          sb'.ring.out = sb.ring.out ++ [(sb.ring.out.length, cellOf (copyHead B h) (lineOf A.env.N (r.content.take r.len)))] ∧
          deliver B sb.ring.out.length (cellOf (copyHead B h) (lineOf A.env.N (r.content.take r.len))) sb.out = some sb'.out) ∨
        (¬ Forwards A B h ∧ sb' = sb)) := by
  obtain ⟨s1, sa', d1, _, d3, d4, _, d6, _⟩ := destructOk_live hA hN hr hlen hla hp hd
  obtain ⟨b, hb⟩ := hookFires_defined (hook := A.hook) hA.hook hd
  cases b with
  | false =>
    refine ⟨sa', sb, ?_, d3, hlb, d4, d6, rfl, Or.inr ⟨?_, rfl⟩⟩
    · unfold destructOk at d1
      unfold destructVia
      rw [hb] at d1 ⊢
      simp only [Option.bind_eq_bind, Option.bind_some, Bool.false_eq_true, if_false] at d1 ⊢
      rw [d1]; rfl
    · rintro ⟨hh, hv, ha, _⟩
      rw [hh] at hb
      exact absurd ((hookFires_iff hb).mpr ⟨hv, ha⟩) (by simp)
  | true =>
    have hh : A.hook = true := by
      cases hh : A.hook with
      | true => rfl
      | false =>
        rw [hh] at hb
        unfold hookFires at hb
        rw [if_pos rfl] at hb
        exact absurd hb (by simp)
    have hb' := hb
    rw [hh] at hb'
    obtain ⟨hv, ha⟩ := (hookFires_iff hb').mp rfl
    obtain ⟨r1, n1, n2, n3, n4, n5⟩ := hookNul_text hN hr hlen
    unfold destructOk at d1
    rw [hb] at d1
    simp only [Option.bind_eq_bind, Option.bind_some, if_true] at d1
    rw [n1] at d1
    simp only [Option.bind_some] at d1
    cases hcall : callHook A h r1 sa with
    | none => rw [hcall] at d1; cases d1
    | some s2 =>
      rw [hcall] at d1
      simp only [Option.bind_some] at d1
      have fin : ∀ sb', transmit B h.category h.identify junk h r1 sb = some sb' → destructVia A B junk h r sa sb = some (sa', sb') := by
        intro sb' ht
        unfold destructVia
        rw [hb]
        simp only [Option.bind_eq_bind, Option.bind_some, if_true]
        rw [n1]
        simp only [Option.bind_some]
        rw [hcall]
        simp only [Option.bind_some]
        rw [ht]
        simp only [Option.bind_some]
        rw [d1]; rfl
      by_cases hadm : Admitted B.lg B.channel.id h.priority h.category h.identify
      · obtain ⟨sb', t1, t2, t3, t4, t5⟩ := transmit_live hB (junk := junk) (h := h) (r := r1) (s := sb) (by omega) (by omega) (by omega) (by omega)
          hlb hdb hc hadm hp
        rw [← hNN, n5] at t3 t4
        exact ⟨sa', sb', fin sb' t1, d3, t2, d4, d6, t5, Or.inl ⟨⟨hh, hv, ha, hadm⟩, t3, t4⟩⟩
      · refine ⟨sa', sb, fin sb (C61_refused B _ _ _ _ _ _ ?_ hadm), d3, hlb, d4, d6, rfl, Or.inr ⟨fun hf => hadm hf.2.2.2, rfl⟩⟩
        intro chans x e1 e2
        obtain ⟨channels, hshm, hch⟩ := hB.channel
        rw [hshm] at e1
        obtain rfl := Option.some.inj e1
        rw [hch] at e2
        obtain rfl := Option.some.inj e2
        exact hdb

/-- What is needed of one statement. -/
structure SoundItem (src : Nat → Setup) (B : Setup) (x : Item) : Prop where
  ready : Ready (src x.src)
  same : (src x.src).env = B.env
  other : (src x.src).channel.id ≠ B.channel.id
  sound : Sound (src x.src) x.call x.ops
  target : ChanDefined B.channel (lastCategory x.call.category x.ops) x.call.identify
  slot : x.junk.length = B.env.N

/-- The channels run, and the date cache is sound. -/
structure WebOk (src : Nat → Setup) (B : Setup) (w : Web) : Prop where
  a : ∀ i, Live (src i).cfg (src i).thread (w.a i).ring
  b : Live B.cfg B.thread w.b.ring
  cache : CacheFrom B.env.zone w.cache

theorem bridgeStatement_ok {src : Nat → Setup} {B : Setup} (hB : Ready B) {x : Item} (hx : SoundItem src B x) {w : Web} (hw : WebOk src B w) :
    (¬ Admitted (src x.src).lg x.call.channelId x.call.priority x.call.category x.call.identify ∧
      ∃ w', bridgeStatement src B x w = some w' ∧ WebOk src B w' ∧ (∀ j, (w'.a j).ring = (w.a j).ring) ∧ w'.b = w.b) ∨
    (Admitted (src x.src).lg x.call.channelId x.call.priority x.call.category x.call.identify ∧
      ∃ file t w', FileField x.call.file file ∧ RecordText (src x.src).env (src x.src).names x.call x.ops file t ∧
        bridgeStatement src B x w = some w' ∧ WebOk src B w' ∧ w'.b.hooked = w.b.hooked ∧
        (w'.a x.src).ring.out = (w.a x.src).ring.out ++ [((w.a x.src).ring.out.length,
          cellOf (headOf (src x.src).env (src x.src).names x.call x.ops file) (lineOf (src x.src).env.N t))] ∧
        (∀ j, j ≠ x.src → w'.a j = w.a j) ∧
        ((Forwards (src x.src) B (headOf (src x.src).env (src x.src).names x.call x.ops file) ∧
          w'.b.ring.out = w.b.ring.out ++ [(w.b.ring.out.length,
            cellOf (copyHead B (headOf (src x.src).env (src x.src).names x.call x.ops file)) (lineOf (src x.src).env.N t))] ∧
          deliver B w.b.ring.out.length
            (cellOf (copyHead B (headOf (src x.src).env (src x.src).names x.call x.ops file)) (lineOf (src x.src).env.N t)) w.b.out = some w'.b.out) ∨
        (¬ Forwards (src x.src) B (headOf (src x.src).env (src x.src).names x.call x.ops file) ∧ w'.b = w.b))) := by
  obtain ⟨hA, hsame, hother, ha, htar, hslot⟩ := hx
  obtain ⟨S, hS⟩ : ∃ S, S = src x.src := ⟨_, rfl⟩
  rw [← hS] at hA hsame hother ha ⊢
  have hcache : CacheFrom S.env.zone w.cache := by rw [hsame]; exact hw.cache
  obtain ⟨channels, hshm, hch⟩ := hA.channel
  have hdef : ∃ r, blockInput S.lg x.call.channelId x.call.priority x.call.category x.call.identify = some r := by
    refine C01_block_input_defined S.lg _ _ _ _ ?_
    intro chans h1 ch _ h2
    rw [ha.channel] at h2
    rw [hshm] at h1
    obtain rfl := Option.some.inj h1
    rw [hch] at h2
    obtain rfl := Option.some.inj h2
    exact ha.admission
  obtain ⟨r, hr⟩ := hdef
  have hiff := admitted_iff hr
  have hset : ∀ (sa : Sys), Live S.cfg S.thread sa.ring → ∀ i, Live (src i).cfg (src i).thread (if i = x.src then sa else w.a i).ring := by
    intro sa hsa i
    split
    · rename_i e; rw [e, ← hS]; exact hsa
    · exact hw.a i
  have hlx : Live S.cfg S.thread (w.a x.src).ring := by rw [hS]; exact hw.a x.src
  cases r with
  | true =>
    refine Or.inl ⟨fun h => absurd (hiff.mpr h) (by simp), ⟨fun j => if j = x.src then { w.a x.src with cache := w.cache } else w.a j, w.b, w.cache⟩,
      ?_, ⟨hset _ hlx, hw.b, hw.cache⟩, ?_, rfl⟩
    · unfold bridgeStatement construct
      rw [← hS, hr]
      simp only [Option.bind_eq_bind, Option.bind_some, if_true]
      rw [operateAll_none]
      rfl
    · intro j
      simp only
      split
      · rename_i e; rw [e]
      · rfl
  | false =>
    refine Or.inr ⟨hiff.mp rfl, ?_⟩
    obtain ⟨file, hf⟩ := ha.fits
    obtain ⟨t, rec, c, e1, e2, e3, e4, e5, e6⟩ := record_fits hA hf hcache
    have hnames := hf.names
    have hN : S.env.N = B.env.N := by rw [hsame]
    obtain ⟨sa', sb', d1, d2, d3, d4, d5, d6, d7⟩ := destructVia_live hA hB hN (junk := x.junk) (h := headOf S.env S.names x.call x.ops file) (r := rec)
      (sa := { w.a x.src with cache := c }) (sb := w.b) (by omega) (by omega) e3 e4 hlx hw.b ⟨hf.args.priority.1, hf.args.priority.2⟩ ha.dispatch htar
      (by show x.call.channelId ≠ _; rw [ha.channel]; exact hother)
    refine ⟨file, _, ⟨fun j => if j = x.src then sa' else w.a j, sb', sa'.cache⟩, hf.short, e6, ?_, ⟨hset _ d2, d3, ?_⟩, d6, ?_, ?_, d7⟩
    · unfold bridgeStatement construct
      rw [← hS, hr]
      simp only [Option.bind_eq_bind, Option.bind_some, Bool.false_eq_true, if_false]
      rw [e1]
      simp only [Option.bind_some]
      rw [e2]
      simp only [Option.bind_some, destructWith]
      rw [d1]; rfl
    · show CacheFrom B.env.zone sa'.cache
      rw [d5, ← hsame]; exact e5
    · simp only [if_true]; exact d4
    · intro j hj
      simp only [if_neg hj]

theorem bridged_lines {src : Nat → Setup} {B : Setup} {prog : List Item} {recs : List (Nat × Head × List Char)} {copies : List (Head × List Char)}
    (g1 : Bridged src B prog recs copies) : ∀ r ∈ copies, r.2 ≠ [] ∧ ∃ x ∈ prog, r.1.ts = x.call.ts := by
  induction g1 with
  | nil => intro r hr; exact absurd hr (by simp)
  | refused _ _ ih =>
    intro r hr
    obtain ⟨h1, x, hx, e⟩ := ih r hr
    exact ⟨h1, x, List.mem_cons_of_mem _ hx, e⟩
  | kept _ _ _ _ _ ih =>
    intro r hr
    obtain ⟨h1, x, hx, e⟩ := ih r hr
    exact ⟨h1, x, List.mem_cons_of_mem _ hx, e⟩
  | @forwarded y file t rest recs copies _ _ _ _ _ ih =>
    intro r hr
    rcases List.mem_cons.mp hr with rfl | hr
    · exact ⟨by simp [lineOf], y, List.mem_cons_self, rfl⟩
    · obtain ⟨h1, x, hx, e⟩ := ih r hr
      exact ⟨h1, x, List.mem_cons_of_mem _ hx, e⟩

end FNLog
