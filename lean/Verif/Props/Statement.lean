import Verif.Proof.EndToEnd
import Verif.Proof.KernelRfl

/-!
# Properties of complete log statements (C28, C60, C61, C64)
-/

namespace FNLog
open Spec

/-! ## C28 -/

/-- **C28**: a log statement that is not admitted changes nothing at all, whatever is written to its stream. -/
theorem C28_refused {S : Setup} {a : Call} (hd : CallDefined S.lg a.channelId a.category a.identify)
    (hn : ¬ Admitted S.lg a.channelId a.priority a.category a.identify) (ops : List StreamOp) (s : Sys) :
    statement S a ops s = some s := by
  obtain ⟨r, hr⟩ := C01_block_input_defined S.lg a.channelId a.priority a.category a.identify
    (fun chans h x _ h2 => hd chans x h h2)
  have hiff := admitted_iff hr
  cases r with
  | true => exact refused_statement hr
  | false => exact absurd (hiff.mp rfl) hn

/-! ## C60 -/

/-- The devices are numbered by their positions, and the channel knows its last virtual device (as every loaded
configuration, C38, C39). -/
structure HookKnown (ch : Channel) : Prop where
  ids : ∀ (j : Nat) (d : Device), ch.devices[j]? = some d → d.id = j
  last : ch.virtualDeviceId = ((ch.devices.filter (·.outType = .virtual)).map (·.id)).getLastD 0

/-- **C60** for channels with exactly one virtual device: the hook is called for a log exactly if threshold, ranges and
masks of that device accept it. -/
theorem C60_hook_partial {ch : Channel} (hk : HookKnown ch) {v : Device}
    (h1 : ch.devices.filter (·.outType = .virtual) = [v]) {h : Head} {r : Bool} (hr : hookFires true ch h = some r) :
    r = true ↔ ∃ d ∈ ch.devices, d.outType = .virtual ∧ HookAccepts d h := by
  have hv : v ∈ ch.devices ∧ v.outType = .virtual := by
    have : v ∈ ch.devices.filter (·.outType = .virtual) := by rw [h1]; simp
    simpa using this
  obtain ⟨j, hj⟩ := List.getElem?_of_mem hv.1
  have hid := hk.ids j v hj
  have hvid : ch.virtualDeviceId = j := by
    rw [hk.last, h1]
    simpa using hid
  rw [hookFires_iff hr, hvid, List.getD_eq_getElem?_getD]
  simp only [Int.toNat_natCast, hj, Option.getD_some]
  constructor
  · rintro ⟨_, ha⟩
    exact ⟨v, hv.1, hv.2, ha⟩
  · rintro ⟨d, hd, hd', ha⟩
    have : d ∈ ch.devices.filter (·.outType = .virtual) := by simpa using ⟨hd, hd'⟩
    rw [h1] at this
    obtain rfl := List.mem_singleton.mp this
    exact ⟨by omega, ha⟩

/-- **C60**, any number of virtual devices: the last one decides. -/
theorem C60_last {ch : Channel} (hk : HookKnown ch) {v : Device}
    (h1 : (ch.devices.filter (·.outType = .virtual)).getLast? = some v) {h : Head} {r : Bool}
    (hr : hookFires true ch h = some r) : r = true ↔ HookAccepts v h := by
  have hv : v ∈ ch.devices := (List.mem_filter.mp (List.mem_of_getLast? h1)).1
  obtain ⟨j, hj⟩ := List.getElem?_of_mem hv
  have hid := hk.ids j v hj
  have hvid : ch.virtualDeviceId = j := by
    rw [hk.last, List.getLastD_eq_getLast?, List.getLast?_map, h1]
    simpa using hid
  rw [hookFires_iff hr, hvid, List.getD_eq_getElem?_getD]
  simp only [Int.toNat_natCast, hj, Option.getD_some]
  exact ⟨fun h => h.2, fun h => ⟨by omega, h⟩⟩

/-- **C60**: the hook gets an admitted log once, with its text, exactly if the device at `virtual_device_id_` accepts it;
it never gets anything else. -/
theorem C60_once {S : Setup} (hS : Ready S) {a : Call} {ops : List StreamOp} (ha : Sound S a ops) {s : Sys}
    (hl : Live S.cfg S.thread s.ring) (dates : List Int) (hc : s.cache = cacheAfter S.env.zone dates)
    (hadm : Admitted S.lg a.channelId a.priority a.category a.identify) :
    ∃ file t s', FileField a.file file ∧ RecordText S.env S.names a ops file t ∧ statement S a ops s = some s' ∧
      (S.hook = true ∧ 0 ≤ S.channel.virtualDeviceId ∧
          HookAccepts (S.channel.devices.getD S.channel.virtualDeviceId.toNat {}) (headOf S.env S.names a ops file) →
        s'.hooked = s.hooked ++ [(headOf S.env S.names a ops file, hookText S.env.N t)]) ∧
      (¬ (S.hook = true ∧ 0 ≤ S.channel.virtualDeviceId ∧
          HookAccepts (S.channel.devices.getD S.channel.virtualDeviceId.toNat {}) (headOf S.env S.names a ops file)) →
        s'.hooked = s.hooked) := by
  have hcf : CacheFrom S.env.zone s.cache := by rw [hc]; exact cacheAfter_ok _ _
  rcases statement_ok hS ha hl hcf with ⟨hn, _⟩ | ⟨_, file, t, s1, s', hf, ht, hst, _, _, hk, he, _, _⟩
  · exact absurd hadm hn
  · refine ⟨file, t, s', hf, ht, hst, fun hy => ?_, fun hn => ?_⟩
    · rcases hk.calls with ⟨e, _⟩ | ⟨_, hno⟩
      · rw [he, e]
      · exact absurd hy hno
    · rcases hk.calls with ⟨_, hyes⟩ | ⟨e, _⟩
      · exact absurd hyes hn
      · rw [he, e]

/-- A record with priority INFO. -/
def demoHead : Head := ⟨0, 2, 0, 0, 17, some "f".toList, some "a.cpp".toList, 1794800000, 417, 4711, 0⟩

/-- **C60** fails for a channel without a virtual device: the hook is called (for device 0). -/
theorem C60_no_virtual_counterexample :
    ∃ ch : Channel, HookKnown ch ∧ (∀ d ∈ ch.devices, d.outType ≠ .virtual) ∧ hookFires true ch demoHead = some true := by
  refine ⟨{ devices := [{ id := 0, outType := .file, cfg := { able := 1 } }] }, ⟨?_, by decide⟩, by decide, by decide⟩
  intro j d hj
  match j with
  | 0 => obtain rfl := Option.some.inj hj; rfl
  | j + 1 => exact absurd hj (by simp)

/-- **C60** fails for two virtual devices: the first one accepts everything but is not asked. -/
theorem C60_two_counterexample :
    ∃ ch : Channel, HookKnown ch ∧ (∃ d ∈ ch.devices, d.outType = .virtual ∧ HookAccepts d demoHead) ∧
      hookFires true ch demoHead = some false := by
  refine ⟨{ virtualDeviceId := 1, devices := [{ id := 0, outType := .virtual, cfg := { able := 1 } },
    { id := 1, outType := .virtual, cfg := { able := 1, priority := 5 } }] }, ⟨?_, by decide⟩, ?_, by decide⟩
  · intro j d hj
    match j with
    | 0 => obtain rfl := Option.some.inj hj; rfl
    | 1 => obtain rfl := Option.some.inj hj; rfl
    | j + 2 => exact absurd hj (by simp)
  · refine ⟨_, by simp; exact Or.inl rfl, rfl, by decide, ?_, ?_, ?_, ?_⟩
    · exact Or.inl (by decide)
    · exact Or.inl (by decide)
    · exact Or.inl (by decide)
    · exact Or.inl (by decide)

/-- A disabled virtual device is asked like an enabled one. -/
theorem C60_disabled :
    hookFires true { devices := [{ id := 0, outType := .virtual, cfg := { able := 0 } }] } demoHead = some true := by
  decide

/-- The hypotheses of `C60_hook_partial`: a file device and a virtual device for errors only. -/
example : ∃ ch : Channel, HookKnown ch ∧ (∃ v, ch.devices.filter (·.outType = .virtual) = [v]) ∧
    hookFires true ch demoHead = some false ∧ hookFires true ch { demoHead with priority := 4 } = some true := by
  refine ⟨{ virtualDeviceId := 1, devices := [{ id := 0, outType := .file, cfg := { able := 1 } },
    { id := 1, outType := .virtual, cfg := { able := 1, priority := 4 } }] }, ⟨?_, by decide⟩, ⟨_, rfl⟩, by decide, by decide⟩
  intro j d hj
  match j with
  | 0 => obtain rfl := Option.some.inj hj; rfl
  | 1 => obtain rfl := Option.some.inj hj; rfl
  | j + 2 => exact absurd hj (by simp)

/-! ## C61 -/

/-- **C61**: transmission to the channel the record comes from does nothing. -/
theorem C61_same_channel (S : Setup) (category identify : Int) (junk : List Char) (h : Head) (r : Rec) (s : Sys)
    (hc : h.channelId = S.channel.id) : transmit S category identify junk h r s = some s := by
  unfold transmit
  rw [if_pos hc]

/-- **C61**: transmission to a channel that does not admit the record does nothing. -/
theorem C61_refused (S : Setup) (category identify : Int) (junk : List Char) (h : Head) (r : Rec) (s : Sys)
    (hd : CallDefined S.lg S.channel.id category identify)
    (hn : ¬ Admitted S.lg S.channel.id h.priority category identify) :
    transmit S category identify junk h r s = some s := by
  obtain ⟨b, hb⟩ := C01_block_input_defined S.lg S.channel.id h.priority category identify
    (fun chans e x _ h2 => hd chans x e h2)
  have hiff := admitted_iff hb
  cases b with
  | false => exact absurd (hiff.mp rfl) hn
  | true =>
    unfold transmit
    rw [hb]
    split <;> rfl

/-- **C61**: else the channel gets one record more: with the text (cut as usual if it is too long), the time, the thread
and the source position of the given one, and the given category and identify.  It is dispatched at once. -/
theorem C61_copy {S : Setup} (hS : Ready S) (category identify : Int) {junk : List Char} {h : Head} {r : Rec} {s : Sys}
    (hN : 2 ≤ S.env.N) (hj : junk.length = S.env.N) (hr : r.content.length = S.env.N) (hlen : r.len ≤ S.env.N)
    (hl : Live S.cfg S.thread s.ring) (hd : ChanDefined S.channel category identify)
    (hc : h.channelId ≠ S.channel.id) (ha : Admitted S.lg S.channel.id h.priority category identify)
    (hp : 0 ≤ h.priority ∧ h.priority ≤ 6) :
    ∃ s' h' line, transmit S category identify junk h r s = some s' ∧
      s'.ring.out = s.ring.out ++ [(s.ring.out.length, cellOf h' line)] ∧
      deliver S s.ring.out.length (cellOf h' line) s.out = some s'.out ∧
      line = lineOf S.env.N (r.content.take r.len) ∧
      h'.ts = h.ts ∧ h'.precise = h.precise ∧ h'.thread = h.thread ∧ h'.file = h.file ∧ h'.line = h.line ∧
      h'.func = h.func ∧ h'.priority = h.priority ∧ h'.prefixLen = h.prefixLen ∧
      h'.channelId = S.channel.id ∧ h'.category = category ∧ h'.identify = identify ∧
      s'.cache = s.cache ∧ s'.hooked = s.hooked := by
  obtain ⟨channels, hshm, hch⟩ := hS.channel
  obtain ⟨b, hb⟩ := C01_block_input_defined S.lg S.channel.id h.priority category identify (by
    intro chans e x _ h2
    rw [hshm] at e
    obtain rfl := Option.some.inj e
    rw [hch] at h2
    obtain rfl := Option.some.inj h2
    exact hd)
  have hbf : b = false := (admitted_iff hb).mpr ha
  subst hbf
  have h1 : 0 + (r.content.take r.len).length ≤ junk.length := by
    rw [List.length_take]; omega
  have htr : transRec junk r = some ⟨put junk 0 (r.content.take r.len), r.len⟩ := by
    unfold transRec
    rw [writeAt_put h1]
    rfl
  have htext : (put junk 0 (r.content.take r.len)).take r.len = r.content.take r.len := by
    unfold put
    have : (r.content.take r.len).length = r.len := by rw [List.length_take]; omega
    simp only [List.take_zero, List.nil_append]
    rw [List.take_append_of_le_length (by omega), List.take_of_length_le (by omega)]
  obtain ⟨ring, p1, p2, p3⟩ := pushRecord_live hS (h := transHead S.channel.id category identify h)
    (r := ⟨put junk 0 (r.content.take r.len), r.len⟩) (s := s) hN (by show (put _ _ _).length = _; rw [put_length h1, hj]) hl
  rw [htext] at p2 p3
  obtain ⟨o', ho'⟩ := deliver_total hS (h := transHead S.channel.id category identify h)
    (line := lineOf S.env.N (r.content.take r.len)) (n := s.ring.out.length) (o := s.out) hp hd.2
  rw [ho'] at p3
  refine ⟨{ s with ring := ring, out := o' }, transHead S.channel.id category identify h, lineOf S.env.N (r.content.take r.len), ?_, p2, ho', rfl, rfl, rfl, rfl, rfl, rfl, rfl, rfl, rfl, rfl, rfl, rfl, rfl, rfl⟩
  unfold transmit
  rw [if_neg hc, hb]
  simp only [Option.bind_eq_bind, Option.bind_some, Bool.false_eq_true, if_false]
  rw [htr]
  exact p3

/-! ## C64 -/

/-- **C64**: one thread executes any sequence of log statements on a running sync channel (whatever the devices, their
filters and the answers of the operating system).  Every statement returns, and afterwards:
* the channel has output exactly the records of the admitted statements in their order, each with its prefix and text
  (cut if it does not fit);
* every file device has been handed exactly those of these lines that its filter takes, in this order: its open file, its
  statistics and its files are as if it had processed them alone (`Runs`; C46-C52 say what this means);
* no other file has changed.
Different file devices must have different files, and the hook not report to the device considered (see C60). -/
theorem C64_end_to_end_partial {S : Setup} (hS : Ready S) (hap : FilesApart S.fenv S.channel.id S.channel.devices)
    {prog : List (Call × List StreamOp)} {s : Sys} (hp : ∀ x ∈ prog, Sound S x.1 x.2)
    (hl : Live S.cfg S.thread s.ring) {dates : List Int} (hc : s.cache = cacheAfter S.env.zone dates)
    (ho : Own S.fenv S.channel.id S.channel.devices s.out) :
    ∃ recs s', Logged S prog recs ∧ statements S prog s = some s' ∧
      s'.ring.out.map Prod.snd = s.ring.out.map Prod.snd ++ recs.map (fun r => cellOf r.1 r.2) ∧
      (∀ (k : Nat) (d : Device), S.channel.devices[k]? = some d → d.outType = .file →
        (S.hook = false ∨ S.channel.virtualDeviceId ≠ k) →
        ∃ taken t, Runs S.fenv S.channel.id d (view s.out k) (handed S.os k d s.ring.out.length recs) taken t ∧
          t.handle = (s'.out.dev k).handle ∧ t.logs = (s'.out.dev k).logs ∧
          AgreeOn (FilesOf S.fenv S.channel.id d) t.fs s'.out.fs) ∧
      (∀ p, Foreign S.fenv S.channel.id S.channel.devices p → s'.out.fs p = s.out.fs p) := by
  obtain ⟨recs, s', h1, h2, _, _, _, h6, h7, h8⟩ := statements_ok hS hap hp hl (by rw [hc]; exact cacheAfter_ok _ _) ho
  refine ⟨recs, s', h1, h2, ?_, ?_, h8⟩
  · rw [h6, List.map_append]
    congr 1
    exact cells_snd _ _
  · intro k d hk hd hv
    obtain ⟨tk, t, hr, hs⟩ := h7 k d (view s.out k) hk hd hv ⟨rfl, rfl, fun _ _ => rfl, fun p hp => ho k d p hk hd hp⟩
    exact ⟨tk, t, hr, hs.handle, hs.logs, hs.fs⟩

theorem handed_lines (os : Nat → Nat → Os) (k : Nat) (d : Device) (recs : List (Head × List Char)) : ∀ n,
    (handed os k d n recs).map (·.content) = linesFor d recs := by
  induction recs with
  | nil => intro n; rfl
  | cons x recs ih =>
    obtain ⟨h, l⟩ := x
    intro n
    unfold handed linesFor
    by_cases ht : DeviceTakes d h.priority h.category h.identify
    · rw [if_pos ht, List.map_cons, ih (n + 1), List.filter_cons_of_pos (by simpa using ht)]
      rfl
    · rw [if_neg ht, ih (n + 1), List.filter_cons_of_neg (by simpa using ht)]
      rfl

theorem handed_mem {os : Nat → Nat → Os} {k : Nat} {d : Device} {recs : List (Head × List Char)} : ∀ {n : Nat} {l : FileLog},
    l ∈ handed os k d n recs → ∃ m, ∃ r ∈ recs, l = fileLog (os m k) r.1 r.2 := by
  induction recs with
  | nil => intro n l h; exact absurd h (by simp [handed])
  | cons x recs ih =>
    obtain ⟨h, line⟩ := x
    intro n l hl
    unfold handed at hl
    split at hl
    · rcases List.mem_cons.mp hl with rfl | hl
      · exact ⟨n, _, List.mem_cons_self, rfl⟩
      · obtain ⟨m, r, hr, e⟩ := ih hl
        exact ⟨m, r, List.mem_cons_of_mem _ hr, e⟩
    · obtain ⟨m, r, hr, e⟩ := ih hl
      exact ⟨m, r, List.mem_cons_of_mem _ hr, e⟩

theorem logged_lines {S : Setup} {prog : List (Call × List StreamOp)} {recs : List (Head × List Char)}
    (h : Logged S prog recs) : ∀ r ∈ recs, r.2 ≠ [] ∧ ∃ x ∈ prog, r.1.ts = x.1.ts := by
  induction h with
  | nil => intro r hr; exact absurd hr (by simp)
  | refused _ _ ih =>
    intro r hr
    obtain ⟨h1, x, hx, e⟩ := ih r hr
    exact ⟨h1, x, List.mem_cons_of_mem _ hx, e⟩
  | @admitted a ops file t rest recs _ _ _ _ ih =>
    intro r hr
    rcases List.mem_cons.mp hr with rfl | hr
    · exact ⟨by simp [lineOf], (a, ops), List.mem_cons_self, rfl⟩
    · obtain ⟨h1, x, hx, e⟩ := ih r hr
      exact ⟨h1, x, List.mem_cons_of_mem _ hx, e⟩

/-- **C64** for a device that writes one file (no rotation): while the operating system opens and writes the file, exactly
the lines taken by the filter of the device are appended to it, in program order. -/
theorem C64_appended_partial {S : Setup} (hS : Ready S) (hap : FilesApart S.fenv S.channel.id S.channel.devices)
    {prog : List (Call × List StreamOp)} {s : Sys} (hp : ∀ x ∈ prog, Sound S x.1 x.2)
    (hl : Live S.cfg S.thread s.ring) {dates : List Int} (hc : s.cache = cacheAfter S.env.zone dates)
    (ho : Own S.fenv S.channel.id S.channel.devices s.out)
    {k : Nat} {d : Device} (hk : S.channel.devices[k]? = some d) (hd : d.outType = .file)
    (hv : S.hook = false ∨ S.channel.virtualDeviceId ≠ k)
    (h1 : d.cfg.rollback ≤ 0) (h2 : d.cfg.limitSize ≤ 0) (h3 : d.cfg.rolldaily = 0) (h4 : d.cfg.rollhourly = 0)
    {F : List Char} (hlen : F.length < 250)
    (hF : ∀ ts, fullPath S.fenv.proc (S.fenv.tm ts) S.fenv.fuel d S.channel.id = some F)
    (hos : ∀ n, (S.os n k).opens = true ∧ (S.os n k).short = none)
    (hh : (s.out.dev k).handle = some F ∨ (s.out.dev k).handle = none ∧
      ∀ x ∈ prog, (s.out.dev k).logs DEVICE_LOG_LAST_TRY_CREATE_TIMESTAMP + 5 ≤ x.1.ts) :
    ∃ recs s', Logged S prog recs ∧ statements S prog s = some s' ∧
      (s'.out.fs F).getD [] = (s.out.fs F).getD [] ++ linesFor d recs := by
  obtain ⟨recs, s', g1, g2, _, g4, _⟩ := C64_end_to_end_partial hS hap hp hl hc ho
  refine ⟨recs, s', g1, g2, ?_⟩
  obtain ⟨tk, t, hr, _, _, ha⟩ := g4 k d hk hd hv
  have hline := logged_lines g1
  obtain ⟨_, e2, _⟩ := simple_runs h1 h2 h3 h4 hlen hF hr
    (by
      intro log hm
      obtain ⟨m, r, hr, rfl⟩ := handed_mem hm
      exact ⟨(hos m).1, (hos m).2, (hline r hr).1⟩)
    (hh.imp id fun h => ⟨h.1, by
      intro log hm
      obtain ⟨m, r, hr, rfl⟩ := handed_mem hm
      obtain ⟨_, x, hx, e⟩ := hline r hr
      show _ ≤ r.1.ts
      rw [e]
      exact h.2 x hx⟩)
  rw [handed_lines] at e2
  rw [← ha F (filesOf_path (hF 0)), e2]
  rfl

/-! A channel with a file device for everything and one for errors, and a program of three statements: an information, an
error, and one that no device takes. -/

def demoFile (i : Nat) (name : Char) (priority : Int) : Device :=
  { id := i, outType := .file, file := [name], cfg := { able := 1, priority := priority } }

def demoChannel : Channel :=
  { type := .sync, state := .running, devices := [demoFile 0 'a' 1, demoFile 1 'b' 4] }

def demoSetup : Setup where
  env := demoEnv 500
  fenv := ⟨⟨"p".toList, 1⟩, fun _ => ⟨126, 10, 16, 11, 33, 20⟩, id, id, 50⟩
  names := ⟨"main".toList, []⟩
  lg := ⟨.running, some [demoChannel]⟩
  channel := demoChannel
  hook := false
  thread := 1
  cfg := { L := 4, async := false, nl := .byte '\n' }
  os := fun _ _ => {}

def demoCall (priority : Int) : Call :=
  ⟨0, priority, 0, 0, some "a.cpp".toList, 17, some "f".toList, 0x63, 1794800000, 417, 1, List.replicate 500 '.'⟩

def demoProg : List (Call × List StreamOp) :=
  [(demoCall 2, [.put (.str "n=".toList), .put (.int 7)]), (demoCall 4, [.setCategory 1, .put (.str "oops".toList)]),
   (demoCall 0, [.put (.str "not seen".toList)])]

def demoSys : Sys := ⟨after demoSetup.cfg [.started], ⟨fun _ => none, fun _ => {}, [], []⟩, .zero, []⟩

theorem demo_path (i : Nat) (c : Char) (hc : c = 'a' ∨ c = 'b') (p ts : Int) :
    fullPath demoSetup.fenv.proc (demoSetup.fenv.tm ts) demoSetup.fenv.fuel (demoFile i c p) 0 = some (c :: ".log".toList) := by
  rcases hc with rfl | rfl <;> rfl

theorem demo_ready : Ready demoSetup where
  lib := (demoEnv_ok 500).1
  zone := (demoEnv_ok 500).2.1
  slots := by decide
  nl := rfl
  id := by decide
  channel := ⟨_, rfl, rfl⟩
  hook := fun h => absurd h (by decide)
  named := by
    intro d hd _ ts
    simp only [demoSetup, demoChannel, List.mem_cons, List.not_mem_nil, or_false] at hd
    rcases hd with rfl | rfl
    · exact ⟨_, demo_path 0 'a' (Or.inl rfl) 1 ts⟩
    · exact ⟨_, demo_path 1 'b' (Or.inr rfl) 4 ts⟩

theorem demo_files {i : Nat} {c : Char} (hc : c = 'a' ∨ c = 'b') {p : Int} {q : List Char}
    (h : FilesOf demoSetup.fenv 0 (demoFile i c p) q) : q.head? = some c := by
  obtain ⟨ts, F, j, hF, rfl⟩ := h
  rw [demo_path i c hc p ts] at hF
  obtain rfl := Option.some.inj hF
  unfold backup
  split <;> rfl

theorem demo_apart : FilesApart demoSetup.fenv demoSetup.channel.id demoSetup.channel.devices := by
  intro i j a b hij ha hb _ _ p ⟨h1, h2⟩
  have key : ∀ (i : Nat) (a : Device), demoSetup.channel.devices[i]? = some a →
      (i = 0 ∧ a = demoFile 0 'a' 1) ∨ (i = 1 ∧ a = demoFile 1 'b' 4) := by
    intro i a h
    match i with
    | 0 => exact Or.inl ⟨rfl, (Option.some.inj h).symm⟩
    | 1 => exact Or.inr ⟨rfl, (Option.some.inj h).symm⟩
    | i + 2 => exact absurd h (by simp [demoSetup, demoChannel])
  rcases key i a ha with ⟨rfl, rfl⟩ | ⟨rfl, rfl⟩ <;> rcases key j b hb with ⟨rfl, rfl⟩ | ⟨rfl, rfl⟩
  · exact hij rfl
  · exact absurd ((demo_files (Or.inl rfl) h1).symm.trans (demo_files (Or.inr rfl) h2)) (by decide)
  · exact absurd ((demo_files (Or.inr rfl) h1).symm.trans (demo_files (Or.inl rfl) h2)) (by decide)
  · exact hij rfl

theorem demo_fits (p : Int) (hp : p = 0 ∨ p = 2 ∨ p = 4) (ops : List StreamOp)
    (hv : ∀ v ∈ written ops, Val.All (Val.Fine (fun _ _ => True) fun _ => True) v) :
    Fits demoSetup.env demoSetup.names (demoCall p) ops "a.cpp".toList where
  slot := List.length_replicate
  args := by rcases hp with rfl | rfl | rfl <;> exact ⟨by decide, by decide, by decide, by decide, by decide⟩
  date := by
    show (fixedZone 28800).Printed 1794800000 417
    refine ⟨?_, (fixedZone_uniform 28800).regular (fixedZone_covers 28800) _⟩
    refine ⟨?_, ⟨?_, ?_, ?_⟩, ?_⟩ <;> decide +kernel
  short := by
    have h := shortPath_spec "a.cpp".toList
    have e : "a.cpp".toList.drop (shortPath "a.cpp".toList) = "a.cpp".toList := by decide +kernel
    rw [e] at h
    exact h
  names := by show 5 + 1 + 398 ≤ 500; decide
  vals := hv

theorem demo_defined (c i : Int) : ∀ d ∈ demoChannel.devices, DevDefined d c i := by
  intro d hd
  simp only [demoChannel, List.mem_cons, List.not_mem_nil, or_false] at hd
  rcases hd with rfl | rfl <;> exact ⟨by decide, by decide, by decide, by decide, Or.inl (by decide), Or.inl (by decide)⟩

theorem demo_sound : ∀ x ∈ demoProg, Sound demoSetup x.1 x.2 := by
  intro x hx
  have hd := demo_defined
  have hc : ∀ c i, ChanDefined demoChannel c i := fun c i =>
    ⟨⟨by decide, by decide, by decide, by decide, Or.inl (by decide), Or.inl (by decide)⟩, hd c i⟩
  simp only [demoProg, List.mem_cons, List.not_mem_nil, or_false] at hx
  rcases hx with rfl | rfl | rfl
  · refine ⟨rfl, hc _ _, hd _ _, _, demo_fits 2 (by decide) _ ?_⟩
    intro v hv
    simp only [written, List.mem_cons, List.not_mem_nil, or_false] at hv
    rcases hv with rfl | rfl <;> simp [Val.All, Val.Fine]
  · refine ⟨rfl, hc _ _, hd _ _, _, demo_fits 4 (by decide) _ ?_⟩
    intro v hv
    simp only [written, List.mem_cons, List.not_mem_nil, or_false] at hv
    rcases hv with rfl; simp [Val.All, Val.Fine]
  · refine ⟨rfl, hc _ _, hd _ _, _, demo_fits 0 (by decide) _ ?_⟩
    intro v hv
    simp only [written, List.mem_cons, List.not_mem_nil, or_false] at hv
    rcases hv with rfl; simp [Val.All, Val.Fine]

/-- All hypotheses of `C64_end_to_end_partial` and `C64_appended_partial` hold for the demo, and its model runs. -/
example : Ready demoSetup ∧ FilesApart demoSetup.fenv demoSetup.channel.id demoSetup.channel.devices ∧
    (∀ x ∈ demoProg, Sound demoSetup x.1 x.2) ∧ Live demoSetup.cfg demoSetup.thread demoSys.ring ∧
    demoSys.cache = cacheAfter demoSetup.env.zone [] ∧
    Own demoSetup.fenv demoSetup.channel.id demoSetup.channel.devices demoSys.out :=
  ⟨demo_ready, demo_apart, demo_sound, live_start rfl _, rfl, fun _ _ _ _ _ h => absurd h (by simp [demoSys])⟩

example : (statements demoSetup demoProg demoSys).map (fun s => (s.out.fs "a.log".toList, s.out.fs "b.log".toList)) =
    some (some ["[20261116 11:33:20.417][INFO ][a.cpp:17](f) n=7\n".toList,
      "[20261116 11:33:20.417][ERROR][a.cpp:17](f) oops\n".toList],
      some ["[20261116 11:33:20.417][ERROR][a.cpp:17](f) oops\n".toList]) := by
  kernel_rfl

end FNLog
