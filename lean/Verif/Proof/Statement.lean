import Verif.Proof.Publish
import Verif.Proof.Dispatch
import Verif.Props.PrefixChanges
import Verif.Props.Filter

/-! # A log statement from its call to the devices -/

namespace FNLog
open Spec

/-! ## Admission -/

theorem admitted_iff {lg : LoggerView} {ch p c i : Int} {r : Bool} (h : blockInput lg ch p c i = some r) :
    r = false ↔ Admitted lg ch p c i := by
  rw [C01_block_input_iff lg ch p c i r h]
  unfold Admitted
  constructor
  · rintro ⟨h1, chans, c, h2, h3, h4, h5, h6, h7⟩
    exact ⟨h1, h3, chans, c, h2, h4, h5, h6, h7⟩
  · rintro ⟨h1, h3, chans, c, h2, h4, h5, h6, h7⟩
    exact ⟨h1, chans, c, h2, h3, h4, h5, h6, h7⟩

/-! ## Operations on a stream without a record -/

theorem operateAll_none (E : Env) (c : DateCache) (ops : List StreamOp) :
    operateAll E ⟨none, ⟨none, c⟩⟩ ops = some ⟨none, ⟨none, c⟩⟩ := by
  induction ops with
  | nil => rfl
  | cons o ops ih =>
    unfold operateAll
    have : operate E ⟨none, ⟨none, c⟩⟩ o = some ⟨none, ⟨none, c⟩⟩ := by
      cases o with
      | put v =>
        have : streamAll E ⟨none, c⟩ [v] = some ⟨none, c⟩ := execAll_none E c _
        simp only [operate, this, Option.map_some]
      | setCategory c => rfl
    rw [this]
    exact ih

theorem refused_statement {S : Setup} {a : Call} {ops : List StreamOp} {s : Sys}
    (h : blockInput S.lg a.channelId a.priority a.category a.identify = some true) : statement S a ops s = some s := by
  unfold statement construct
  rw [h]
  simp only [Option.bind_eq_bind, Option.bind_some, if_true]
  rw [operateAll_none]
  rfl

/-! ## Operations on a stream with a record -/

theorem streamAll_cons (E : Env) (s : Strm) (v : Val) (vs : List Val) :
    streamAll E s (v :: vs) = (streamAll E s [v]).bind fun t => streamAll E t vs := by
  unfold streamAll
  rw [List.flatMap_cons, execAll_append]
  simp only [List.flatMap_cons, List.flatMap_nil, List.append_nil]

theorem execAll_data {E : Env} : ∀ {ps : List Prim} {s t : Strm}, execAll E s ps = some t →
    (t.data = none ↔ s.data = none) := by
  intro ps
  induction ps with
  | nil =>
    intro s t h
    simp only [execAll, Option.some.injEq] at h
    rw [h]
  | cons p ps ih =>
    intro s t h
    simp only [execAll, Option.bind_eq_bind, Option.bind_eq_some_iff] at h
    obtain ⟨u, hu, h⟩ := h
    rw [ih h]
    cases hs : s.data with
    | none =>
      unfold exec at hu
      rw [hs] at hu
      simp only [Option.some.injEq] at hu
      rw [← hu, hs]
    | some r =>
      have : u.data ≠ none := by
        intro hn
        unfold exec at hu
        rw [hs] at hu
        simp only at hu
        have key : ∀ {o : Option Rec} , (∃ a, o = some a ∧ Strm.mk (some a) s.cache = u) → False := by
          rintro o ⟨a, _, rfl⟩
          exact absurd hn (by simp)
        have key2 : some s = some u → False := by
          intro e
          rw [← Option.some.inj e, hs] at hn
          exact absurd hn (by simp)
        cases p <;> simp only at hu
        all_goals (repeat' split at hu)
        all_goals first
          | exact key hu
          | exact key2 hu
          | skip
        all_goals
          simp only [Option.bind_eq_bind, Option.bind_eq_some_iff, Option.map_eq_some_iff, Option.some.injEq] at hu
          obtain ⟨_, _, rfl⟩ := hu
          exact absurd hn (by simp)
      simp [this]

theorem operateAll_eq (E : Env) : ∀ (ops : List StreamOp) (h : Head) (s : Strm), s.data ≠ none →
    operateAll E ⟨some h, s⟩ ops =
      (streamAll E s (written ops)).map fun t => ⟨some { h with category := lastCategory h.category ops }, t⟩ := by
  intro ops
  induction ops with
  | nil => intro h s _; rfl
  | cons o ops ih =>
    intro h s hs
    unfold operateAll
    cases o with
    | put v =>
      simp only [written, lastCategory, operate]
      rw [streamAll_cons E s v (written ops)]
      cases hv : streamAll E s [v] with
      | none => rfl
      | some t =>
        simp only [Option.map_some, Option.bind_eq_bind, Option.bind_some]
        exact ih h t (fun hn => hs ((execAll_data hv).mp hn))
    | setCategory c =>
      simp only [written, lastCategory, operate]
      cases hd : s.data with
      | none => exact absurd hd hs
      | some r =>
        simp only [Option.map_some, Option.bind_eq_bind, Option.bind_some]
        rw [ih _ s hs]

/-! ## The record of an admitted statement -/

theorem constructOk_fits {S : Setup} (hS : Ready S) {a : Call} {ops : List StreamOp} {file : List Char}
    (hf : Fits S.env S.names a ops file) {cache : DateCache} (hc : CacheFrom S.env.zone cache) :
    ∃ r c, constructOk S.env S.names a cache = some ⟨some { headOf S.env S.names a [] file with category := a.category }, ⟨some r, c⟩⟩ ∧
      r.content.length = S.env.N ∧ r.len ≤ S.env.N ∧ CacheFrom S.env.zone c ∧
      r.content.take r.len = prefixOf S.env.zone (a.prefixArgs S.names) file ∧
      r.len = (prefixOf S.env.zone (a.prefixArgs S.names) file).length := by
  have hN := hf.names
  have h0 : 0 + ['\x00'].length ≤ a.junk.length := by rw [hf.slot]; simp only [List.length_cons, List.length_nil]; omega
  have hi : initRec a.junk = some ⟨put a.junk 0 ['\x00'], 0⟩ := by
    unfold initRec
    rw [writeAt_put h0]
    rfl
  have hsz : (put a.junk 0 ['\x00']).length = S.env.N := by rw [put_length h0, hf.slot]
  unfold constructOk
  rw [hi]
  simp only [Option.bind_eq_bind, Option.bind_some]
  by_cases hm : a.mask = 0
  · have hp : prefixOf S.env.zone (a.prefixArgs S.names) file = [] := if_pos hm
    rw [C27_no_prefix _ _ _ hm]
    refine ⟨⟨put a.junk 0 ['\x00'], 0⟩, cache, ?_, hsz, Nat.zero_le _, hc, by rw [hp]; rfl, by rw [hp]; rfl⟩
    simp only [Option.bind_some, Call.headAfter, Call.head, hm, if_true, headOf, hp, lastCategory, List.length_nil]
  · have hD := fun c hc' => (dateOut_printed hf.date (c := c) hc').1
    have hL := (dateOut_printed hf.date (c := DateCache.zero) (Or.inl rfl)).2
    obtain ⟨_, h⟩ := ctorPrefix_adds hS.lib hS.zone (a.prefixArgs S.names) hf.args _ hD (by omega) hm
    rw [fileText_eq (a := a.prefixArgs S.names) hf.short, funcText_eq] at h
    obtain ⟨r, c', e, hc', w⟩ := h ⟨put a.junk 0 ['\x00'], 0⟩ cache hsz
      (by show 0 + _ ≤ _; rw [Nat.zero_add]; exact hf.names) hc
    rw [e]
    have hpre : r.content.take r.len = prefixOf S.env.zone (a.prefixArgs S.names) file := by
      obtain ⟨r2, c2, e2, _, _, t2⟩ := C27_printed S.env hS.lib hS.zone (a.prefixArgs S.names) hf.args
        hf.date hm file hf.short hf.names (put a.junk 0 ['\x00']) hsz []
      obtain ⟨r3, c3, e3, _, w3⟩ := h ⟨put a.junk 0 ['\x00'], 0⟩ (cacheAfter S.env.zone []) hsz
        (by show 0 + _ ≤ _; rw [Nat.zero_add]; exact hf.names) (cacheAfter_ok _ _)
      rw [e2] at e3
      have : r2 = r3 := by
        have := congrArg Strm.data (Option.some.inj e3)
        exact Option.some.inj this
      subst this
      rw [w.text, ← w3.text, t2]
      exact (if_neg hm).symm
    have hlen : r.len = (prefixOf S.env.zone (a.prefixArgs S.names) file).length := by
      rw [← hpre, List.length_take, w.size, Nat.min_eq_left w.bound]
    refine ⟨r, c', ?_, w.size, w.bound, hc', hpre, hlen⟩
    simp only [Option.bind_some, Call.headAfter, Call.head, hm, if_false, headOf, lastCategory, Strm.len, hlen]

theorem record_fits {S : Setup} (hS : Ready S) {a : Call} {ops : List StreamOp} {file : List Char}
    (hf : Fits S.env S.names a ops file) {cache : DateCache} (hc : CacheFrom S.env.zone cache) :
    ∃ t r c, constructOk S.env S.names a cache = some t ∧
      operateAll S.env t ops = some ⟨some (headOf S.env S.names a ops file), ⟨some r, c⟩⟩ ∧
      r.content.length = S.env.N ∧ r.len ≤ S.env.N ∧ CacheFrom S.env.zone c ∧
      RecordText S.env S.names a ops file (r.content.take r.len) := by
  obtain ⟨r, c, e, hsz, hl, hc', ht, hlen⟩ := constructOk_fits hS hf hc
  obtain ⟨r', c', e', hcc, w⟩ := execAll_wrote S.env hS.lib hS.zone ((written ops).flatMap Val.prims) r c hsz hl hc'
    (fun p hp => (line_fine hf.vals p hp).1)
  refine ⟨_, r', c', e, ?_, w.size, w.bound, hcc, ?_, ?_, ?_⟩
  · rw [operateAll_eq _ _ _ _ (by simp)]
    have : streamAll S.env ⟨some r, c⟩ (written ops) = some ⟨some r', c'⟩ := e'
    rw [this]
    rfl
  · rw [w.text, ht]
    exact List.prefix_append _ _
  · rw [List.length_take]
    have := w.bound
    omega
  · rintro ⟨hroom, hvals⟩
    have hfine := line_fine hvals
    have hT := lineText_prims ⟨doubleText S.env.lib, localDate S.env.zone⟩ (written ops) r.len
    have hblank : ∀ n, Prim.blank n ∈ (written ops).flatMap Val.prims → (textOf S.env S.names a ops file).length + n < S.env.N :=
      fun n hn => (hfine _ hn).2.2 n rfl
    have htl : (textOf S.env S.names a ops file).length = r.len +
        (primsText ⟨doubleText S.env.lib, localDate S.env.zone⟩ r.len ((written ops).flatMap Val.prims)).length := by
      unfold textOf
      rw [List.length_append, ← hlen, hT]
    have hfull := putAll_full S.env ⟨doubleText S.env.lib, localDate S.env.zone⟩ ((written ops).flatMap Val.prims) c
      r.len hc' ⟨rfl, fun ts ms hm c hc' => (dateOut_printed ((hfine _ hm).2.1 ts ms rfl) hc').1⟩
      (fun p hp => (hfine p hp).1) (by rw [← htl]; exact hroom)
      (fun n hn => by rw [← htl]; exact hblank n hn)
    rw [hfull, ← hT] at w
    rw [w.text, ht, hlen]
    rfl

/-! ## Publication -/

theorem lineOf_fits {N : Nat} {text : List Char} (h : text.length + 2 ≤ N) : lineOf N text = text ++ ['\n'] := by
  unfold lineOf
  rw [List.take_of_length_le (by omega)]

theorem pushRecord_live {S : Setup} (hS : Ready S) {h : Head} {r : Rec} {s : Sys} (hN : 2 ≤ S.env.N)
    (hr : r.content.length = S.env.N) (hl : Live S.cfg S.thread s.ring) :
    ∃ ring, Live S.cfg S.thread ring ∧
      ring.out = s.ring.out ++ [(s.ring.out.length, cellOf h (lineOf S.env.N (r.content.take r.len)))] ∧
      pushRecord S h r s = (deliver S s.ring.out.length (cellOf h (lineOf S.env.N (r.content.take r.len))) s.out).map
        fun o => { s with ring := ring, out := o } := by
  obtain ⟨r', e1, e2, e3, e4, _⟩ := seal_line hN r hr
  have hcut : r'.content.take (r'.len - 1) = (r.content.take r.len).take (S.env.N - 2) := by
    have h1 : r'.content.take (r'.len - 1) = (r'.content.take r'.len).take (r'.len - 1) := by
      rw [List.take_take, Nat.min_eq_left (by omega)]
    have h2 : (r.content.take (min r.len (S.env.N - 2))).length = r'.len - 1 := by
      rw [List.length_take, hr]; omega
    rw [h1, e4, ← h2, List.take_left, List.take_take, Nat.min_comm]
  obtain ⟨ring, p1, p2, p3⟩ := live_publish hS.slots hl (pieces h ((r.content.take r.len).take (S.env.N - 2)))
  have hcell : pieces h ((r.content.take r.len).take (S.env.N - 2)) ++ [S.cfg.nl] =
      cellOf h (lineOf S.env.N (r.content.take r.len)) := by
    rw [hS.nl]
    simp [pieces, cellOf, lineOf]
  rw [hcell] at p3
  refine ⟨ring, p2, p3, ?_⟩
  unfold pushRecord
  rw [e1]
  simp only [Option.bind_eq_bind, Option.bind_some]
  rw [hcut, p1]
  simp only [Option.bind_some]
  rw [p3, List.drop_left]
  unfold deliverAll
  cases deliver S s.ring.out.length (cellOf h (lineOf S.env.N (r.content.take r.len))) s.out with
  | none => rfl
  | some o => rfl

/-! ## The devices are defined -/

theorem accountDevice_total {f : Fields} {p len : Int} (hp : 0 ≤ p ∧ p < 7) : ∃ g, accountDevice f p len = some g := by
  obtain ⟨g, hg, _⟩ := C05_device_accounting_partial f p len hp.1 hp.2
  exact ⟨g, hg⟩

theorem enter_total {E : FileEnv} {ch : Int} {k : Nat} {d : Device} {os : Os} {log : DevLog} {o : OutSt}
    (hp : 0 ≤ log.priority ∧ log.priority ≤ 6)
    (hn : d.outType = .file → ∃ p, fullPath E.proc (E.tm log.ts) E.fuel d ch = some p) :
    ∃ o', enterProcDevice E ch k d os log o = some o' := by
  have hp7 : 0 ≤ log.priority ∧ log.priority < 7 := ⟨hp.1, by omega⟩
  unfold enterProcDevice
  split
  · obtain ⟨g, hg⟩ := accountDevice_total (f := (o.dev k).logs) (len := log.text.length) hp7
    have : ∃ t, screenText log = some t := by
      unfold screenText
      split
      · exact ⟨_, rfl⟩
      · simp only
        have hlt : ¬ log.priority ≥ PRIORITY_MAX := by unfold PRIORITY_MAX; omega
        rw [if_neg hlt]
        have : log.priority.toNat < 7 := by omega
        unfold screenColor
        rw [List.getElem?_eq_getElem (by simpa using this)]
        exact ⟨_, rfl⟩
    obtain ⟨t, ht⟩ := this
    unfold screenDevice
    rw [hg, ht]
    exact ⟨_, rfl⟩
  · rename_i hd
    obtain ⟨p, hpath⟩ := hn hd
    obtain ⟨s', hs'⟩ := fileDevice_total (E := E) (ch := ch) (d := d)
      (log := ⟨log.ts, log.priority, log.text, os.opens, os.short⟩) (s := ⟨o.fs, (o.dev k).handle, (o.dev k).logs⟩)
      ⟨hp.1, by show log.priority < 8; omega⟩ hpath
    unfold fileOut
    rw [hs']
    exact ⟨_, rfl⟩
  · unfold udpDevice
    simp only
    generalize (if (o.dev k).sock = true then o.dev k else openSock os (o.dev k)) = u
    split
    · exact ⟨_, rfl⟩
    · obtain ⟨g, hg⟩ := accountDevice_total (f := if os.sent ≤ 0 then loseLine u.logs else u.logs) (len := log.text.length) hp7
      rw [hg]
      exact ⟨_, rfl⟩
  · exact ⟨_, rfl⟩
  · obtain ⟨g, hg⟩ := accountDevice_total (f := (o.dev k).logs) (len := log.text.length) hp7
    unfold emptyDevice
    rw [hg]
    exact ⟨_, rfl⟩
  · exact ⟨_, rfl⟩

theorem dispatchOut_total {E : FileEnv} {ch : Int} {os : Nat → Os} {log : DevLog} {c i : Int}
    (hp : 0 ≤ log.priority ∧ log.priority ≤ 6) : ∀ {ds : List Device} {k : Nat} {o : OutSt},
    (∀ d ∈ ds, DevDefined d c i ∧ (d.outType = .file → ∃ p, fullPath E.proc (E.tm log.ts) E.fuel d ch = some p)) →
    ∃ o', dispatchOut E ch os log c i k ds o = some o' := by
  intro ds
  induction ds with
  | nil => intro k o _; exact ⟨o, rfl⟩
  | cons d ds ih =>
    intro k o h
    obtain ⟨r, hr⟩ := dispatchTakes_defined (p := log.priority) (h d (by simp)).1
    unfold dispatchOut
    rw [hr]
    simp only [Option.bind_eq_bind, Option.bind_some]
    cases r with
    | false => exact ih fun d hd => h d (by simp [hd])
    | true =>
      obtain ⟨o1, h1⟩ := enter_total (os := os k) (o := o) (k := k) hp (h d (by simp)).2
      simp only [if_true]
      rw [h1]
      exact ih fun d hd => h d (by simp [hd])

theorem deliver_total {S : Setup} (hS : Ready S) {h : Head} {line : List Char} {n : Nat} {o : OutSt}
    (hp : 0 ≤ h.priority ∧ h.priority ≤ 6) (hd : ∀ d ∈ S.channel.devices, DevDefined d h.category h.identify) :
    ∃ o', deliver S n (cellOf h line) o = some o' := by
  unfold deliver
  rw [decode_cell]
  simp only [Option.bind_eq_bind, Option.bind_some]
  exact dispatchOut_total hp fun d hm => ⟨hd d hm, fun hf => hS.named d hm hf _⟩

/-! ## The hook -/

theorem hookDevice_eq {S : Setup} (hS : Ready S) (hh : S.hook = true) :
    hookDevice S.channel = some (S.channel.devices.getD S.channel.virtualDeviceId.toNat {}) := by
  unfold hookDevice
  rw [if_pos (hS.hook hh)]

theorem hookFires_iff {ch : Channel} {h : Head} {r : Bool} (hf : hookFires true ch h = some r) :
    r = true ↔ 0 ≤ ch.virtualDeviceId ∧ HookAccepts (ch.devices.getD ch.virtualDeviceId.toNat {}) h := by
  unfold hookFires at hf
  rw [if_neg (by decide)] at hf
  split at hf
  · rename_i hv
    simp only [Option.bind_eq_bind, Option.bind_eq_some_iff] at hf
    obtain ⟨d, hd, hf⟩ := hf
    unfold hookDevice at hd
    split at hd
    · obtain rfl := Option.some.inj hd
      split at hf
      · rename_i hp
        rw [virtualTakes_spec hf]
        exact ⟨fun ⟨a, b, c, d⟩ => ⟨hv, hp, a, b, c, d⟩, fun ⟨_, _, a, b, c, d⟩ => ⟨a, b, c, d⟩⟩
      · rename_i hp
        obtain rfl := Option.some.inj hf
        simp only [Bool.false_eq_true, false_iff]
        rintro ⟨_, hp', _⟩
        exact hp hp'
    · exact absurd hd (by simp)
  · rename_i hv
    obtain rfl := Option.some.inj hf
    simp only [Bool.false_eq_true, false_iff]
    rintro ⟨hv', _⟩
    exact hv hv'

theorem virtualTakes_defined {d : Device} {c i : Int} (h : DevDefined d c i) : ∃ r, virtualTakes d c i = some r := by
  obtain ⟨h1, h2, h3, h4, h5, h6⟩ := h
  obtain ⟨r1, e1⟩ := rangeFails_defined (v := c) h1 h2
  obtain ⟨r2, e2⟩ := rangeFails_defined (v := i) h3 h4
  obtain ⟨r3, e3⟩ := maskFails_defined h5
  obtain ⟨r4, e4⟩ := maskFails_defined h6
  unfold virtualTakes
  rw [e1, e2, e3, e4]
  cases r1 <;> cases r2 <;> cases r3 <;> cases r4 <;> exact ⟨_, rfl⟩

theorem hookFires_defined {hook : Bool} {ch : Channel} {h : Head} (hv : hook = true → ch.virtualDeviceId < MAX_DEVICE_SIZE)
    (hd : ∀ d ∈ ch.devices, DevDefined d h.category h.identify) : ∃ r, hookFires hook ch h = some r := by
  unfold hookFires
  split
  · exact ⟨_, rfl⟩
  · rename_i hh
    split
    · unfold hookDevice
      rw [if_pos (hv (by simpa using hh))]
      simp only [Option.bind_eq_bind, Option.bind_some]
      split
      · apply virtualTakes_defined
        rw [List.getD_eq_getElem?_getD]
        cases hg : ch.devices[ch.virtualDeviceId.toNat]? with
        | none =>
          refine ⟨?_, ?_, ?_, ?_, Or.inl ?_, Or.inl ?_⟩ <;> decide
        | some d => exact hd d (List.mem_of_getElem? hg)
      · exact ⟨_, rfl⟩
    · exact ⟨_, rfl⟩

theorem hookNul_text {N : Nat} {r : Rec} (hN : 2 ≤ N) (hr : r.content.length = N) (hl : r.len ≤ N) :
    ∃ r', hookNul N r = some r' ∧ r'.content.length = N ∧ r'.len = r.len ∧
      r'.content.take r'.len = hookText N (r.content.take r.len) ∧
      lineOf N (r'.content.take r'.len) = lineOf N (r.content.take r.len) := by
  have h1 : min r.len (N - 1) + ['\x00'].length ≤ r.content.length := by
    simp only [List.length_cons, List.length_nil]; omega
  have hlen : (r.content.take r.len).length = r.len := by rw [List.length_take]; omega
  have htext : (put r.content (min r.len (N - 1)) ['\x00']).take r.len = hookText N (r.content.take r.len) := by
    unfold hookText put
    rw [hlen]
    by_cases h : r.len < N
    · rw [if_pos h, Nat.min_eq_left (by omega), List.append_assoc,
        List.take_append_of_le_length (by rw [List.length_take]; omega), List.take_take, Nat.min_self]
    · rw [if_neg h]
      have e : r.len = N := by omega
      rw [e, Nat.min_eq_right (by omega), List.take_of_length_le (i := N), List.drop_of_length_le, List.append_nil,
        List.take_take, Nat.min_eq_left (by omega)]
      · simp only [List.length_cons, List.length_nil]; omega
      · rw [List.length_append, List.length_append, List.length_take, List.length_drop]
        simp only [List.length_cons, List.length_nil]; omega
  refine ⟨⟨put r.content (min r.len (N - 1)) ['\x00'], r.len⟩, ?_, ?_, rfl, htext, ?_⟩
  · unfold hookNul
    rw [writeAt_put h1]
    rfl
  · rw [put_length h1, hr]
  · show lineOf N ((put r.content (min r.len (N - 1)) ['\x00']).take r.len) = _
    rw [htext]
    unfold hookText lineOf
    rw [hlen]
    split
    · rfl
    · congr 1
      have e : r.len = N := by omega
      rw [List.take_append_of_le_length (by rw [List.length_take, List.length_take]; omega), List.take_take,
        Nat.min_eq_left (by omega)]

/-! ## One statement -/

/-- The hook leaves everything but its log and the statistics of its device as it was. -/
structure Hooked (S : Setup) (h : Head) (text : List Char) (s s' : Sys) : Prop where
  ring : s'.ring = s.ring
  cache : s'.cache = s.cache
  fs : s'.out.fs = s.out.fs
  screen : s'.out.screen = s.out.screen
  net : s'.out.net = s.out.net
  others : ∀ j, j ≠ S.channel.virtualDeviceId.toNat → s'.out.dev j = s.out.dev j
  handle : ∀ j, (s'.out.dev j).handle = (s.out.dev j).handle
  sock : ∀ j, (s'.out.dev j).sock = (s.out.dev j).sock
  quiet : S.hook = false ∨ S.channel.virtualDeviceId < 0 → s' = s
  calls : s'.hooked = s.hooked ++ [(h, text)] ∧ S.hook = true ∧ 0 ≤ S.channel.virtualDeviceId ∧
      HookAccepts (S.channel.devices.getD S.channel.virtualDeviceId.toNat {}) h ∨
    s' = s ∧ ¬ (S.hook = true ∧ 0 ≤ S.channel.virtualDeviceId ∧
      HookAccepts (S.channel.devices.getD S.channel.virtualDeviceId.toNat {}) h)

theorem destructOk_live {S : Setup} (hS : Ready S) {h : Head} {r : Rec} {s : Sys} (hN : 2 ≤ S.env.N)
    (hr : r.content.length = S.env.N) (hlen : r.len ≤ S.env.N) (hl : Live S.cfg S.thread s.ring)
    (hp : 0 ≤ h.priority ∧ h.priority ≤ 6) (hd : ∀ d ∈ S.channel.devices, DevDefined d h.category h.identify) :
    ∃ s1 s', destructOk S h r s = some s' ∧ Hooked S h (hookText S.env.N (r.content.take r.len)) s s1 ∧
      Live S.cfg S.thread s'.ring ∧
      s'.ring.out = s.ring.out ++ [(s.ring.out.length, cellOf h (lineOf S.env.N (r.content.take r.len)))] ∧
      deliver S s.ring.out.length (cellOf h (lineOf S.env.N (r.content.take r.len))) s1.out = some s'.out ∧
      s'.cache = s.cache ∧ s'.hooked = s1.hooked := by
  obtain ⟨b, hb⟩ := hookFires_defined (hook := S.hook) hS.hook hd
  have push : ∀ (s1 : Sys) (r1 : Rec), s1.ring = s.ring → s1.cache = s.cache → r1.content.length = S.env.N →
      lineOf S.env.N (r1.content.take r1.len) = lineOf S.env.N (r.content.take r.len) →
      ∃ s', pushRecord S h r1 s1 = some s' ∧ Live S.cfg S.thread s'.ring ∧
      s'.ring.out = s.ring.out ++ [(s.ring.out.length, cellOf h (lineOf S.env.N (r.content.take r.len)))] ∧
      deliver S s.ring.out.length (cellOf h (lineOf S.env.N (r.content.take r.len))) s1.out = some s'.out ∧
      s'.cache = s.cache ∧ s'.hooked = s1.hooked := by
    intro s1 r1 h1 h2 h3 h4
    obtain ⟨ring, p1, p2, p3⟩ := pushRecord_live hS (h := h) (s := s1) hN h3 (by rw [h1]; exact hl)
    obtain ⟨o', ho'⟩ := deliver_total hS (h := h) (line := lineOf S.env.N (r.content.take r.len))
      (n := s.ring.out.length) (o := s1.out) hp hd
    rw [h1, h4] at p2 p3
    rw [ho'] at p3
    exact ⟨_, p3, p1, p2, ho', h2, rfl⟩
  unfold destructOk
  rw [hb]
  simp only [Option.bind_eq_bind, Option.bind_some]
  cases b with
  | false =>
    obtain ⟨s', e1, e2⟩ := push s r rfl rfl hr rfl
    refine ⟨s, s', e1, ⟨rfl, rfl, rfl, rfl, rfl, fun _ _ => rfl, fun _ => rfl, fun _ => rfl, fun _ => rfl, Or.inr ⟨rfl, ?_⟩⟩, e2⟩
    rintro ⟨hh, hv, ha⟩
    rw [hh] at hb
    exact absurd ((hookFires_iff hb).mpr ⟨hv, ha⟩) (by simp)
  | true =>
    have hh : S.hook = true := by
      cases hh : S.hook with
      | true => rfl
      | false =>
        rw [hh] at hb
        unfold hookFires at hb
        rw [if_pos rfl] at hb
        exact absurd hb (by simp)
    rw [hh] at hb
    obtain ⟨hv, ha⟩ := (hookFires_iff hb).mp rfl
    obtain ⟨r1, n1, n2, n3, n4, n5⟩ := hookNul_text hN hr hlen
    obtain ⟨g, hg⟩ := accountDevice_total (f := (s.out.dev S.channel.virtualDeviceId.toNat).logs) (p := h.priority)
      (len := r1.len) ⟨hp.1, by omega⟩
    rw [n1]
    simp only [if_true, Option.bind_some]
    unfold callHook
    simp only [Option.bind_eq_bind]
    rw [hg]
    simp only [Option.bind_some]
    obtain ⟨s1, hs1⟩ : ∃ s1 : Sys, s1 = { s with
      out := s.out.setDev S.channel.virtualDeviceId.toNat { s.out.dev S.channel.virtualDeviceId.toNat with logs := g },
      hooked := s.hooked ++ [(h, r1.content.take r1.len)] } := ⟨_, rfl⟩
    rw [← hs1]
    obtain ⟨s', e1, e2⟩ := push s1 r1 (by rw [hs1]) (by rw [hs1]) n2 n5
    refine ⟨s1, s', e1, ⟨by rw [hs1], by rw [hs1], by rw [hs1]; rfl, by rw [hs1]; rfl, by rw [hs1]; rfl,
      fun j hj => by rw [hs1]; exact setDev_other _ _ hj, fun j => ?_, fun j => ?_, fun hq => ?_, Or.inl ⟨?_, hh, hv, ha⟩⟩, e2⟩
    · rw [hs1]
      by_cases hj : j = S.channel.virtualDeviceId.toNat
      · rw [hj, setDev_self]
      · rw [setDev_other _ _ hj]
    · rw [hs1]
      by_cases hj : j = S.channel.virtualDeviceId.toNat
      · rw [hj, setDev_self]
      · rw [setDev_other _ _ hj]
    · rcases hq with hq | hq
      · rw [hh] at hq; exact absurd hq (by simp)
      · omega
    · rw [hs1, n4]

end FNLog
