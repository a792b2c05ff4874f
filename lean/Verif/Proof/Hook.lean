import Verif.Spec.Hook
import Verif.Proof.Twin

/-! # Several threads and a hook -/

namespace FNLog
open Spec Ring

/-! ## Records and calls of several threads -/

/-- The records of the statements made by several threads, and the calls of the hook for them. -/
inductive Heard (S : Setup) : List (Nat × Call × List StreamOp) → List (Nat × Head × List Char) →
    List (Nat × Head × List Char) → Prop
  | nil : Heard S [] [] []
  | refused {made : List (Nat × Call × List StreamOp)} {recs calls : List (Nat × Head × List Char)} {t : Nat} {a : Call}
    {ops : List StreamOp} : Heard S made recs calls → ¬ Admitted S.lg a.channelId a.priority a.category a.identify →
    Heard S (made ++ [(t, a, ops)]) recs calls
  | admitted {made : List (Nat × Call × List StreamOp)} {recs calls : List (Nat × Head × List Char)} {t : Nat} {a : Call}
    {ops : List StreamOp} {file text : List Char} : Heard S made recs calls →
    Admitted S.lg a.channelId a.priority a.category a.identify → FileField a.file file →
    RecordText S.env S.names a ops file text →
    Heard S (made ++ [(t, a, ops)]) (recs ++ [(t, headOf S.env S.names a ops file, lineOf S.env.N text)])
      (calls ++ (hookCall S (headOf S.env S.names a ops file) text).map fun c => (t, c))

theorem loggedHook_append {S : Setup} {p q : List (Call × List StreamOp)} {r u c d : List (Head × List Char)}
    (h : LoggedHook S p r c) (h' : LoggedHook S q u d) : LoggedHook S (p ++ q) (r ++ u) (c ++ d) := by
  induction h with
  | nil => exact h'
  | refused h1 _ ih => exact .refused h1 ih
  | admitted h1 h2 h3 _ ih =>
    rw [List.append_assoc]
    exact .admitted h1 h2 h3 ih

theorem linesOf_mark {β : Type} (t u : Nat) (l : List β) : linesOf t (l.map fun x => (u, x)) = if u = t then l else [] := by
  unfold linesOf
  exact filter_mark t u l

theorem heard_logged {S : Setup} {made : List (Nat × Call × List StreamOp)} {recs calls : List (Nat × Head × List Char)}
    (h : Heard S made recs calls) (t : Nat) : LoggedHook S (linesOf t made) (linesOf t recs) (linesOf t calls) := by
  induction h with
  | nil => exact .nil
  | @refused made recs calls u a ops _ h1 ih =>
    rw [linesOf_append, linesOf_one]
    split
    · have := loggedHook_append ih (LoggedHook.refused (ops := ops) h1 .nil)
      simpa using this
    · simpa using ih
  | @admitted made recs calls u a ops file text _ h1 h2 h3 ih =>
    rw [linesOf_append, linesOf_append, linesOf_append, linesOf_one, linesOf_one, linesOf_mark]
    split
    · have := loggedHook_append ih (LoggedHook.admitted h1 h2 h3 .nil)
      simpa using this
    · simpa using ih

/-! ## The record of a statement -/

/-- The record as the destructor finds it. -/
structure HeldOk (S : Setup) (h : Head) (r : Rec) : Prop where
  size : r.content.length = S.env.N
  len : r.len ≤ S.env.N
  room : 2 ≤ S.env.N
  priority : 0 ≤ h.priority ∧ h.priority ≤ 6
  filters : ∀ d ∈ S.channel.devices, DevDefined d h.category h.identify

theorem recordOf_ok {S : Setup} (hS : Ready S) {a : Call} {ops : List StreamOp} (ha : Sound S a ops) {cache : DateCache}
    (hc : CacheFrom S.env.zone cache) :
    (¬ Admitted S.lg a.channelId a.priority a.category a.identify ∧ recordOf S a ops cache = some none ∧
      formed S a ops cache = some (none, cache)) ∨
    (Admitted S.lg a.channelId a.priority a.category a.identify ∧
      ∃ file r cache', FileField a.file file ∧ RecordText S.env S.names a ops file (r.content.take r.len) ∧
        HeldOk S (headOf S.env S.names a ops file) r ∧
        recordOf S a ops cache = some (some (headOf S.env S.names a ops file, r)) ∧
        ∃ body, formed S a ops cache = some (some body, cache') ∧
          body ++ [S.cfg.nl] = cellOf (headOf S.env S.names a ops file) (lineOf S.env.N (r.content.take r.len))) := by
  obtain ⟨channels, hshm, hch⟩ := hS.channel
  have hdef : ∃ r, blockInput S.lg a.channelId a.priority a.category a.identify = some r := by
    refine C01_block_input_defined S.lg a.channelId a.priority a.category a.identify ?_
    intro chans h1 ch _ h2
    rw [ha.channel] at h2
    rw [hshm] at h1
    obtain rfl := Option.some.inj h1
    rw [hch] at h2
    obtain rfl := Option.some.inj h2
    exact ha.admission
  obtain ⟨r, hr⟩ := hdef
  have hiff := admitted_iff hr
  cases r with
  | true =>
    refine Or.inl ⟨fun h => absurd (hiff.mpr h) (by simp), ?_, ?_⟩
    · unfold recordOf construct
      rw [hr]
      simp only [Option.bind_eq_bind, Option.bind_some, if_true]
      rw [operateAll_none]
      rfl
    · unfold formed construct
      rw [hr]
      simp only [Option.bind_eq_bind, Option.bind_some, if_true]
      rw [operateAll_none]
      rfl
  | false =>
    refine Or.inr ⟨hiff.mp rfl, ?_⟩
    obtain ⟨file, hf⟩ := ha.fits
    obtain ⟨t, rec, c, e1, e2, e3, e4, e5, e6⟩ := record_fits hS hf hc
    have hnames := hf.names
    obtain ⟨r', f1, f2, f3, f4, _⟩ := seal_line (N := S.env.N) (by omega) rec e3
    have hcut : r'.content.take (r'.len - 1) = (rec.content.take rec.len).take (S.env.N - 2) := by
      have h1 : r'.content.take (r'.len - 1) = (r'.content.take r'.len).take (r'.len - 1) := by
        rw [List.take_take, Nat.min_eq_left (by omega)]
      have h2 : (rec.content.take (min rec.len (S.env.N - 2))).length = r'.len - 1 := by
        rw [List.length_take, e3]; omega
      rw [h1, f4, ← h2, List.take_left, List.take_take, Nat.min_comm]
    refine ⟨file, rec, c, hf.short, e6, ⟨e3, e4, by omega, hf.args.priority, ha.dispatch⟩, ?_,
      pieces (headOf S.env S.names a ops file) (r'.content.take (r'.len - 1)), ?_, ?_⟩
    · unfold recordOf construct
      rw [hr]
      simp only [Option.bind_eq_bind, Option.bind_some, Bool.false_eq_true, if_false]
      rw [e1]
      simp only [Option.bind_some]
      rw [e2]
      simp only [Option.bind_some]
    · unfold formed construct
      rw [hr]
      simp only [Option.bind_eq_bind, Option.bind_some, Bool.false_eq_true, if_false]
      rw [e1]
      simp only [Option.bind_some]
      rw [e2]
      simp only [Option.bind_some, sealed, f1, Option.map_some]
    · rw [hcut, hS.nl]
      simp [pieces, cellOf, lineOf]

/-! ## Threads before their hook -/

/-- Inside a statement, before its destructor. -/
def early : PC Piece → Bool
  | .hChk _ _ | .hLoad _ _ | .hRead _ _ _ | .hCas _ _ _ | .hOut _ | .hSleep _ | .hInc _ _ | .hMark _ _ | .fInit _ _
  | .fill _ _ => true
  | _ => false

theorem stepT_early (c : Cfg Piece) (s : St Piece) (t : Nat) :
    (early (s.pc t) = false → early ((stepT c s t).pc t) = false) ∧
    (early (s.pc t) = true → (∃ k, s.pc t = .fill k [] ∧ (stepT c s t).pc t = .pChk k) ∨
      ((∀ k, s.pc t ≠ .fill k []) ∧ early ((stepT c s t).pc t) = true) ∨
      ((∀ k, s.pc t ≠ .fill k []) ∧ (stepT c s t).pc t = .idle ∧ s.state ≠ .running)) := by
  unfold Ring.stepT
  split <;> rename_i hpc <;> rw [hpc] <;> refine ⟨fun h => ?_, fun h => ?_⟩
  all_goals first
    | cases h; done
    | exact Or.inl ⟨_, rfl, if_pos rfl⟩
    | ((repeat' split) <;> first
        | (refine Or.inr (Or.inl ⟨by nofun, ?_⟩); simp [St.go, early]; done)
        | (rename_i hst; refine Or.inr (Or.inr ⟨by nofun, ?_, hst⟩); simp [St.go]; done)
        | (simp [St.go, early]; done)
        | (rw [hpc]; rfl))

theorem ns_run {c : Cfg Piece} : ∀ {es : List (Ev Piece)} {s : St Piece}, Inv c s → NS c s → Timely c s es →
    (∀ e ∈ es, e.noStop) → NS c (Ring.run c s es) := by
  intro es
  induction es with
  | nil => intro s _ h _ _; exact h
  | cons e es ih =>
    intro s hi h ht hn
    exact ih (hi.step ht.1) (h.step hi e (hn e (by simp))) ht.2 fun x hx => hn x (by simp [hx])

/-- What an event does to the threads. -/
theorem act_pcs {S : Setup} {s s' : Crew} {e : Act} (h : act S s e = some s') (hl : ∀ t a ops, e ≠ .log t a ops) :
    s'.made = s.made ∧ s'.ring.calls = s.ring.calls ∧
    (s'.ring.pc = s.ring.pc ∧ (∀ t k, e = .run t → s.ring.pc t ≠ .fill k []) ∨
      ∃ t, e = .run t ∧ s'.ring = stepT S.cfg s.ring t) := by
  cases e with
  | log t a ops => exact absurd rfl (hl t a ops)
  | started =>
    obtain rfl := Option.some.inj h
    exact ⟨rfl, step_calls _ _ _ (by nofun), Or.inl ⟨by simp only [Ring.step]; split <;> rfl, by nofun⟩⟩
  | closing =>
    obtain rfl := Option.some.inj h
    exact ⟨rfl, step_calls _ _ _ (by nofun), Or.inl ⟨rfl, by nofun⟩⟩
  | stop =>
    obtain rfl := Option.some.inj h
    exact ⟨rfl, step_calls _ _ _ (by nofun), Or.inl ⟨by simp only [Ring.step]; (repeat' split) <;> rfl, by nofun⟩⟩
  | dates t c =>
    obtain rfl := Option.some.inj h
    exact ⟨rfl, rfl, Or.inl ⟨rfl, by nofun⟩⟩
  | run t =>
    simp only [act, runThread] at h
    split at h
    · rename_i k hpc
      split at h
      · unfold dispatchNext at h
        simp only [Option.bind_eq_bind, Option.bind_eq_some_iff] at h
        obtain ⟨_, _, _, _, _, _, h⟩ := h
        obtain rfl := Option.some.inj h
        refine ⟨rfl, rfl, Or.inl ⟨rfl, fun u j hu => ?_⟩⟩
        cases hu
        rw [hpc]
        nofun
      · obtain rfl := Option.some.inj h
        exact ⟨rfl, stepT_calls _ _ _, Or.inr ⟨t, rfl, rfl⟩⟩
    · obtain rfl := Option.some.inj h
      exact ⟨rfl, stepT_calls _ _ _, Or.inr ⟨t, rfl, rfl⟩⟩

/-! ## The invariant -/

/-- `x` is part of `y`, all of it if `b`. -/
def CallsKept (b : Bool) (x y : List (Head × List Char)) : Prop := x.Sublist y ∧ (b = true → x = y)

theorem CallsKept.append {b : Bool} {x y : List (Head × List Char)} (h : CallsKept b x y) (z : List (Head × List Char)) :
    CallsKept b (x ++ z) (y ++ z) := ⟨h.1.append (List.Sublist.refl _), fun hb => by rw [h.2 hb]⟩

/-- The calls of the hook that thread `t` has made, of those it should make. -/
def Told (b : Bool) (S : Setup) (ring : St Piece) (held : Option (Head × Rec)) (t : Nat)
    (hooked calls : List (Head × List Char)) : Prop :=
  if early (ring.pc t) = true then
    ∃ h r l, held = some (h, r) ∧ HeldOk S h r ∧ calls = l ++ hookCall S h (r.content.take r.len) ∧ CallsKept b hooked l
  else CallsKept b hooked calls

/-- What the calls of the hook have added to the statistics of the devices. -/
structure Extra (S : Setup) (x : Nat → Fields) (calls : List (Head × List Char)) : Prop where
  other : ∀ k, ¬ HookDevice S k → x k = fun _ => 0
  count : ∀ k, HookDevice S k → HookCounted (fun _ => 0) (x k) calls

theorem Extra.unread {S : Setup} {x : Nat → Fields} {calls : List (Head × List Char)} (h : Extra S x calls) (k : Nat) :
    Unread (x k) := by
  intro i hi
  by_cases hk : HookDevice S k
  · refine (h.count k hk).rest i ?_ ?_ fun q _ => ?_
    · unfold DEVICE_LOG_TOTAL_WRITE_LINE; omega
    · unfold DEVICE_LOG_TOTAL_WRITE_BYTE; omega
    · unfold DEVICE_LOG_PRIORITY; omega
  · rw [h.other k hk]

structure PostInv (b : Bool) (S : Setup) (o : OutSt) (p : Post) (s : Crew) : Prop where
  crew : CrewInv S o s
  twin : ∃ x, Twin S x s p.crew ∧ Extra S x (p.hooked.map Prod.snd)
  screen : p.crew.out.screen = s.out.screen
  net : p.crew.out.net = s.out.net
  foreign : ∀ q, Foreign S.fenv S.channel.id S.channel.devices q → p.crew.out.fs q = o.fs q
  ns : b = true → NS S.cfg s.ring
  heard : ∃ recs calls, Heard S s.made recs calls ∧
    s.ring.calls.map (fun e => (e.1, e.2 ++ [S.cfg.nl])) = recs.map (fun r => (r.1, cellOf r.2.1 r.2.2)) ∧
    ∀ t, Told b S s.ring (p.held t) t (linesOf t p.hooked) (linesOf t calls)

theorem hookFires_spec {S : Setup} {h : Head} {b : Bool} (hb : hookFires S.hook S.channel h = some b) :
    b = true ↔ HookTakes S h := by
  cases hh : S.hook with
  | false =>
    rw [hh] at hb
    unfold hookFires at hb
    rw [if_pos rfl] at hb
    obtain rfl := Option.some.inj hb
    refine ⟨by simp, fun x => ?_⟩
    rw [x.1] at hh
    cases hh
  | true =>
    rw [hh] at hb
    rw [hookFires_iff hb]
    exact ⟨fun x => ⟨hh, x⟩, fun x => x.2⟩

theorem Spec.HookCounted.add {f g g' : Fields} {calls : List (Head × List Char)} (hc : HookCounted f g calls) {h : Head}
    (hp : 0 ≤ h.priority ∧ h.priority ≤ 6) {text : List Char} {n : Nat} (hn : text.length = n)
    (hg : accountDevice g h.priority n = some g') : HookCounted f g' (calls ++ [(h, text)]) := by
  obtain ⟨g1, e0, e1, e2, e3, e4⟩ := C05_device_accounting_partial g h.priority n hp.1
    (by unfold PRIORITY_MAX; omega)
  rw [hg] at e0
  obtain rfl := Option.some.inj e0
  refine ⟨?_, ?_, fun q hq => ?_, fun i h1 h2 h3 => ?_⟩
  · rw [e1, hc.lines, List.length_append]
    simp only [List.length_cons, List.length_nil]
    omega
  · rw [e2, hc.bytes, List.map_append, List.flatten_append, List.length_append]
    simp only [List.map_cons, List.map_nil, List.flatten_cons, List.flatten_nil, List.append_nil, hn]
    omega
  · rw [List.filter_append, List.map_append, List.flatten_append, List.length_append]
    by_cases e : h.priority = q
    · have e' : h.priority.toNat = q := by omega
      rw [e'] at e3
      rw [e3, hc.priorities q hq, List.filter_cons, if_pos (by simp [e])]
      simp only [List.filter_nil, List.map_cons, List.map_nil, List.flatten_cons, List.flatten_nil, List.append_nil, hn]
      omega
    · rw [e4 _ (by unfold DEVICE_LOG_PRIORITY DEVICE_LOG_TOTAL_WRITE_LINE; omega)
        (by unfold DEVICE_LOG_PRIORITY DEVICE_LOG_TOTAL_WRITE_BYTE; omega) (by omega), hc.priorities q hq,
        List.filter_cons, if_neg (by simp [e])]
      simp
  · rw [e4 i h1 h2 (h3 h.priority.toNat (by omega)), hc.rest i h1 h2 h3]

/-- The hook is asked. -/
theorem PostInv.hook {b : Bool} {S : Setup} (hS : Ready S) {o : OutSt} {p : Post} {s : Crew} (hi : PostInv b S o p s)
    {t : Nat} {h : Head} {r : Rec} (hk : HeldOk S h r) :
    ∃ p', callHookOf S t h r p = some p' ∧ p'.held = p.held ∧
      p'.hooked = p.hooked ++ (hookCall S h (r.content.take r.len)).map (fun c => (t, c)) ∧
      (∃ x, Twin S x s p'.crew ∧ Extra S x (p'.hooked.map Prod.snd)) ∧
      p'.crew.out.screen = s.out.screen ∧ p'.crew.out.net = s.out.net ∧
      (∀ q, Foreign S.fenv S.channel.id S.channel.devices q → p'.crew.out.fs q = o.fs q) := by
  obtain ⟨b', hb⟩ := hookFires_defined (hook := S.hook) hS.hook hk.filters
  have hspec := hookFires_spec hb
  unfold callHookOf
  rw [hb]
  simp only [Option.bind_eq_bind, Option.bind_some]
  cases b' with
  | false =>
    have hn : ¬ HookTakes S h := fun x => absurd (hspec.mpr x) (by simp)
    refine ⟨p, rfl, rfl, ?_, hi.twin, hi.screen, hi.net, hi.foreign⟩
    unfold hookCall
    rw [if_neg hn]
    exact (List.append_nil _).symm
  | true =>
    have ht := hspec.mp rfl
    obtain ⟨x, tw, ex⟩ := hi.twin
    have hdev : HookDevice S S.channel.virtualDeviceId.toNat := ⟨ht.1, ht.2.1, rfl⟩
    obtain ⟨r1, n1, n2, n3, n4, n5⟩ := hookNul_text hk.room hk.size hk.len
    have hpr : 0 ≤ h.priority ∧ h.priority < 7 := ⟨hk.priority.1, by have := hk.priority.2; omega⟩
    obtain ⟨y, hy⟩ := accountDevice_total (f := x S.channel.virtualDeviceId.toNat) (len := r1.len) hpr
    have hg : accountDevice (p.crew.out.dev S.channel.virtualDeviceId.toNat).logs h.priority r1.len =
        some (plus y (s.out.dev S.channel.virtualDeviceId.toNat).logs) := by
      rw [tw.dev]
      have e : ((s.out.dev S.channel.virtualDeviceId.toNat).plus (x S.channel.virtualDeviceId.toNat)).logs =
          plus (s.out.dev S.channel.virtualDeviceId.toNat).logs (x S.channel.virtualDeviceId.toNat) := by
        funext i
        simp only [DevSt.plus, plus]
        omega
      rw [e, accountDevice_plus, hy, Option.map_some]
      congr 1
      funext i
      simp only [plus]
      omega
    rw [n1]
    simp only [if_true, Option.bind_some]
    rw [hg]
    simp only [Option.bind_some]
    have hcall : hookCall S h (r.content.take r.len) = [(h, r1.content.take r1.len)] := by
      unfold hookCall
      rw [if_pos ht, n4]
    refine ⟨_, rfl, rfl, ?_, ⟨upd x S.channel.virtualDeviceId.toNat y, ?_, ?_, ?_⟩, hi.screen, hi.net, hi.foreign⟩
    · rw [hcall]; rfl
    · refine ⟨tw.ring, fun k => ?_, tw.pos, tw.made, tw.visits, tw.caches, tw.files⟩
      show (p.crew.out.setDev _ _).dev k = _
      by_cases e : k = S.channel.virtualDeviceId.toNat
      · subst e
        rw [setDev_self, upd_same, tw.dev]
        rfl
      · rw [setDev_other _ _ e, upd_ne _ _ e]
        exact tw.dev k
    · intro k hkk
      rw [upd_ne _ _ (fun e => hkk ⟨ht.1, ht.2.1, e⟩)]
      exact ex.other k hkk
    · intro k hkk
      rw [hkk.2.2, upd_same, List.map_append]
      exact (ex.count _ hdev).add hk.priority (by rw [List.length_take, n2, n3]; have := hk.len; omega) hy

/-- The state before an event, when the hook has been asked, and the event. -/
theorem PostInv.after {b : Bool} {S : Setup} {o : OutSt} {p p1 : Post} {s s' : Crew} (hi : PostInv b S o p s) {e : Act}
    (hb : postBefore S p e = some p1) (h1 : ∃ x, Twin S x s p1.crew ∧ Extra S x (p1.hooked.map Prod.snd))
    (h2 : p1.crew.out.screen = s.out.screen) (h3 : p1.crew.out.net = s.out.net)
    (h4 : ∀ q, Foreign S.fenv S.channel.id S.channel.devices q → p1.crew.out.fs q = o.fs q)
    (ha : act S s e = some s') (hc : CrewInv S o s') (hn : b = true → NS S.cfg s'.ring)
    (hh : ∃ recs calls, Heard S s'.made recs calls ∧
      s'.ring.calls.map (fun e => (e.1, e.2 ++ [S.cfg.nl])) = recs.map (fun r => (r.1, cellOf r.2.1 r.2.2)) ∧
      ∀ t, Told b S s'.ring (p1.held t) t (linesOf t p1.hooked) (linesOf t calls)) :
    ∃ p', postAct S p e = some p' ∧ PostInv b S o p' s' := by
  obtain ⟨w, tw, ex⟩ := h1
  obtain ⟨c', x, y, e1, e2, e3⟩ := tw.act ex.unread hi.crew ha
  refine ⟨{ p1 with crew := c' }, ?_, ?_⟩
  · unfold postAct
    rw [hb]
    simp only [Option.bind_eq_bind, Option.bind_some, e1]
  · refine ⟨hc, ⟨w, e2, ex⟩, ?_, ?_, ?_, hn, hh⟩
    · show c'.out.screen = _
      rw [e3.screen', e3.screen, h2]
    · show c'.out.net = _
      rw [e3.net', e3.net, h3]
    · intro q hq
      exact (e3.foreign q hq).trans (h4 q hq)

theorem Told.congr {b : Bool} {S : Setup} {r r' : St Piece} {held : Option (Head × Rec)} {t : Nat}
    {hooked calls : List (Head × List Char)} (h : Told b S r held t hooked calls) (he : early (r'.pc t) = early (r.pc t)) :
    Told b S r' held t hooked calls := by
  unfold Told at h ⊢
  rw [he]
  exact h

/-- One event. -/
theorem PostInv.step {b : Bool} {S : Setup} (hS : Ready S) (hap : FilesApart S.fenv S.channel.id S.channel.devices)
    {o : OutSt} {p : Post} {s : Crew} (hi : PostInv b S o p s) {e : Act} (he : SoundAct S e)
    (ht : ∀ t, e = .run t → timelyAt S.cfg s.ring t) (hb : b = true → e.noStop) :
    ∃ p' s', postAct S p e = some p' ∧ act S s e = some s' ∧ PostInv b S o p' s' := by
  obtain ⟨s', rs, a1, a2, a3, a4, a5, _⟩ := act_ok hS hap hi.crew he ht
  have hn : b = true → NS S.cfg s'.ring := fun hb' => by
    rw [a3]
    exact ns_run hi.crew.ring (hi.ns hb') a4 (a5 (hb hb'))
  obtain ⟨recs, calls, g1, g2, g3⟩ := hi.heard
  obtain ⟨x, tw, _⟩ := hi.twin
  have hpc : p.crew.ring = s.ring := tw.ring
  by_cases hl : ∃ t a ops, e = .log t a ops
  · obtain ⟨t, a, ops, rfl⟩ := hl
    have a1' := a1
    simp only [act, beginLog] at a1'
    have same : s' = s → postBefore S p (.log t a ops) = some p →
        ∃ p' s', postAct S p (.log t a ops) = some p' ∧ act S s (.log t a ops) = some s' ∧ PostInv b S o p' s' := by
      intro h1 h2
      subst h1
      obtain ⟨p', q1, q2⟩ := hi.after h2 hi.twin hi.screen hi.net hi.foreign a1 a2 hn
        ⟨recs, calls, g1, g2, g3⟩
      exact ⟨p', _, q1, a1, q2⟩
    split at a1'
    · rename_i hidle
      split at a1'
      · rename_i hrun
        rcases recordOf_ok hS he (hi.crew.caches t) with ⟨h1, h2, h3⟩ | ⟨h1, file, r, c', h2, h3, h4, h5, body, h6, h7⟩
        · rw [h3] at a1'
          obtain rfl := Option.some.inj a1'
          have hh : ∀ u, Told b S s.ring (upd p.held t none u) u (linesOf u p.hooked) (linesOf u calls) := by
            intro u
            have hg := g3 u
            by_cases e : u = t
            · subst e
              unfold Told at hg ⊢
              rw [hidle] at hg ⊢
              exact hg
            · rw [upd_ne _ _ e]
              exact hg
          obtain ⟨p', q1, q2⟩ := hi.after (e := .log t a ops) (p1 := { p with held := upd p.held t none })
            (by
              simp only [postBefore, holdRecord, hpc, hidle, hrun, and_self, if_true, tw.caches, h2, Option.map_some])
            hi.twin hi.screen hi.net hi.foreign a1 a2 hn ⟨recs, calls, g1.refused h1, g2, hh⟩
          exact ⟨p', _, q1, a1, q2⟩
        · rw [h6] at a1'
          obtain rfl := Option.some.inj a1'
          have hring : Ring.step S.cfg s.ring (.call t body) =
              { s.ring with pc := upd s.ring.pc t (.hChk 0 body), calls := s.ring.calls ++ [(t, body)] } := by
            simp only [Ring.step]
            simp only [hidle]
            rw [if_pos (by simp [hrun.1, hrun.2])]
            rfl
          have hh : ∀ u, Told b S (Ring.step S.cfg s.ring (.call t body))
              (upd p.held t (some (headOf S.env S.names a ops file, r)) u) u (linesOf u p.hooked)
              (linesOf u (calls ++ (hookCall S (headOf S.env S.names a ops file) (r.content.take r.len)).map
                fun c => (t, c))) := by
            intro u
            have hg := g3 u
            rw [linesOf_append, linesOf_mark, hring]
            by_cases e : u = t
            · subst e
              unfold Told at hg ⊢
              rw [hidle] at hg
              rw [if_pos rfl, upd_same]
              simp only [upd_same]
              exact ⟨_, r, linesOf u calls, rfl, h4, rfl, hg⟩
            · rw [if_neg (Ne.symm e), List.append_nil, upd_ne _ _ e]
              exact hg.congr (by simp only [upd_ne _ _ e])
          obtain ⟨p', q1, q2⟩ := hi.after (e := .log t a ops)
            (p1 := { p with held := upd p.held t (some (headOf S.env S.names a ops file, r)) })
            (by
              simp only [postBefore, holdRecord, hpc, hidle, hrun, and_self, if_true, tw.caches, h5, Option.map_some])
            hi.twin hi.screen hi.net hi.foreign a1 a2 hn
            ⟨_, _, g1.admitted h1 h2 h3, by
              show (Ring.step S.cfg s.ring (.call t body)).calls.map _ = _
              rw [step_call hidle hrun.1 hrun.2, List.map_append, List.map_append, g2]
              simp only [List.map_cons, List.map_nil, h7], hh⟩
          exact ⟨p', _, q1, a1, q2⟩
      · rename_i hrun
        exact same (Option.some.inj a1').symm (by simp only [postBefore, holdRecord, hpc, hidle, hrun, if_false])
    · rename_i hidle
      refine same (Option.some.inj a1').symm ?_
      simp only [postBefore, holdRecord, hpc]
  · obtain ⟨m1, m2, m3⟩ := act_pcs a1 fun t a ops h => hl ⟨t, a, ops, h⟩
    rcases m3 with ⟨m3, m4⟩ | ⟨t, rfl, m3⟩
    · have hbef : postBefore S p e = some p := by
        cases e with
        | log t a ops => exact absurd ⟨t, a, ops, rfl⟩ hl
        | run t =>
          simp only [postBefore, beforePush, hpc]
          split
          · rename_i k hk
            exact absurd hk (m4 t k rfl)
          · rfl
        | _ => rfl
      obtain ⟨p', q1, q2⟩ := hi.after hbef hi.twin hi.screen hi.net hi.foreign a1 a2 hn
        ⟨recs, calls, by rw [m1]; exact g1, by rw [m2]; exact g2, fun u => (g3 u).congr (by rw [m3])⟩
      exact ⟨p', s', q1, a1, q2⟩
    · obtain ⟨w1, w2⟩ := stepT_early S.cfg s.ring t
      rw [← m3] at w1 w2
      have hoth : ∀ u, u ≠ t → s'.ring.pc u = s.ring.pc u := fun u hu => by rw [m3]; exact stepT_pc_other _ _ hu
      have hgt := g3 t
      by_cases hf : ∃ k, s.ring.pc t = .fill k []
      · obtain ⟨k, hk⟩ := hf
        have w2' : s'.ring.pc t = .pChk k := by
          rcases w2 (by rw [hk]; rfl) with ⟨k', h1, h2⟩ | ⟨h1, _⟩ | ⟨h1, _⟩
          · rw [hk] at h1
            cases h1
            exact h2
          · exact absurd hk (h1 k)
          · exact absurd hk (h1 k)
        unfold Told at hgt
        rw [if_pos (by rw [hk]; rfl)] at hgt
        obtain ⟨h, r, l, t1, t2, t3, t4⟩ := hgt
        obtain ⟨p1, d1, d2, d3, d4, d5, d6, d7⟩ := hi.hook hS (t := t) t2
        have hh : ∀ u, Told b S s'.ring (p1.held u) u (linesOf u p1.hooked) (linesOf u calls) := by
          intro u
          rw [d2, d3, linesOf_append, linesOf_mark]
          by_cases e : u = t
          · subst e
            rw [if_pos rfl]
            unfold Told
            rw [w2', if_neg (by simp [early]), t3]
            exact t4.append _
          · rw [if_neg (Ne.symm e), List.append_nil]
            exact (g3 u).congr (by rw [hoth u e])
        obtain ⟨p', q1, q2⟩ := hi.after (p1 := p1) (e := .run t)
          (by simp only [postBefore, beforePush, hpc, hk, t1]; exact d1) d4 d5 d6 d7 a1 a2 hn
          ⟨recs, calls, by rw [m1]; exact g1, by rw [m2]; exact g2, hh⟩
        exact ⟨p', s', q1, a1, q2⟩
      · have hbef : postBefore S p (.run t) = some p := by
          simp only [postBefore, beforePush, hpc]
          split
          · rename_i k hk
            exact absurd ⟨k, hk⟩ hf
          · rfl
        have hh : ∀ u, Told b S s'.ring (p.held u) u (linesOf u p.hooked) (linesOf u calls) := by
          intro u
          by_cases e : u = t
          · subst e
            cases he : early (s.ring.pc u) with
            | false => exact hgt.congr ((w1 he).trans he.symm)
            | true =>
              rcases w2 he with ⟨k, h1, _⟩ | ⟨_, h1⟩ | ⟨_, h1, h2⟩
              · exact absurd ⟨k, h1⟩ hf
              · exact hgt.congr (h1.trans he.symm)
              · unfold Told at hgt ⊢
                rw [if_pos he] at hgt
                obtain ⟨h, r, l, _, _, t3, t4⟩ := hgt
                rw [h1, if_neg (by simp [early]), t3]
                refine ⟨t4.1.trans (List.sublist_append_left _ _), fun hb' => ?_⟩
                refine absurd ((hi.ns hb').act u (fun x => ?_) ?_) h2
                · rw [x] at he; cases he
                · revert he
                  cases s.ring.pc u <;> simp [early, isCons]
          · exact (g3 u).congr (by rw [hoth u e])
        obtain ⟨p', q1, q2⟩ := hi.after hbef hi.twin hi.screen hi.net hi.foreign a1 a2 hn
          ⟨recs, calls, by rw [m1]; exact g1, by rw [m2]; exact g2, hh⟩
        exact ⟨p', s', q1, a1, q2⟩

/-- A fresh channel. -/
theorem postInv_start {b : Bool} {S : Setup} (hS : Ready S) {o : OutSt}
    (ho : Own S.fenv S.channel.id S.channel.devices o) : PostInv b S o (post S o) (crew S o) where
  crew := crew_inv hS ho
  twin := ⟨fun _ _ => 0, ⟨rfl, fun _ => (DevSt.plus_zero _).symm, rfl, rfl, rfl, rfl, fun _ _ _ _ _ => rfl⟩,
    fun _ _ => rfl, fun _ _ => ⟨by simp [post], by simp [post], by simp [post], by simp⟩⟩
  screen := rfl
  net := rfl
  foreign := fun _ _ => rfl
  ns := fun _ => NS.init _
  heard := ⟨[], [], .nil, rfl, fun t => by
    unfold Told
    rw [if_neg]
    · exact ⟨List.Sublist.refl _, fun _ => rfl⟩
    · show ¬ early ((Ring.init S.cfg).pc t) = true
      simp only [Ring.init]
      split <;> simp [early]⟩

/-- Any schedule. -/
theorem post_ok {b : Bool} {S : Setup} (hS : Ready S) (hap : FilesApart S.fenv S.channel.id S.channel.devices)
    {o : OutSt} :
    ∀ {es : List Act} {p : Post} {s : Crew}, PostInv b S o p s → (∀ e ∈ es, SoundAct S e) → OnTime S es s →
    (b = true → ∀ e ∈ es, e.noStop) → ∃ p' s', postActs S es p = some p' ∧ acts S es s = some s' ∧ PostInv b S o p' s' := by
  intro es
  induction es with
  | nil => intro p s h _ _ _; exact ⟨p, s, rfl, rfl, h⟩
  | cons e es ih =>
    intro p s h he ht hb
    obtain ⟨p1, s1, h1, h2, h3⟩ := h.step hS hap (he e (by simp)) ht.1 fun hb' => hb hb' e (by simp)
    obtain ⟨p2, s2, k1, k2, k3⟩ := ih h3 (fun x hx => he x (by simp [hx])) (ht.2 s1 h2) fun hb' x hx => hb hb' x (by simp [hx])
    refine ⟨p2, s2, ?_, ?_, k3⟩
    · unfold postActs
      rw [h1]
      exact k1
    · unfold acts
      rw [h2]
      exact k2

end FNLog
