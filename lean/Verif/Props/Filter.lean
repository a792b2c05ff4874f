import Verif.Proof.Filter
import Verif.Model.Counters

/-! # Property theorems C01, C02, C03, C05: filtering -/

namespace FNLog
open Spec

/-- C01. Whenever the call is defined, `BlockInput` admits a log exactly if the logger and the channel
are running and the documented filters pass. -/
theorem C01_block_input_iff (lg : LoggerView) (ch p c i : Int) (r : Bool)
    (h : blockInput lg ch p c i = some r) :
    r = false ↔
      lg.state = .running ∧ ∃ chans channel, lg.shm = some chans ∧ 0 ≤ ch ∧
        chans[ch.toNat]? = some channel ∧ channel.state = .running ∧
        ChannelOk channel.cfg p c i ∧
        ∃ d ∈ channel.devices, DeviceTakes d (clampPriority p) c i := by
  unfold blockInput at h
  split at h
  · rename_i hs; simp at h; subst h; simp [hs]
  · rename_i chans hs
    split at h
    · rename_i hr
      simp at h; subst h
      simp only [Bool.true_eq_false, false_iff, not_and, not_exists]
      intro _ chans' channel' hs' h0 hget
      rw [hs] at hs'; cases hs'
      have := (List.getElem?_eq_some_iff.mp hget).1
      omega
    · rename_i hr
      split at h
      · rename_i hst; simp at h; subst h; simp [hst]
      · rename_i hst
        have hst : lg.state = .running := by simpa using hst
        split at h
        · simp at h
        · rename_i channel hget
          have uniq : (r = false ↔ channel.state = .running ∧ ChannelOk channel.cfg p c i ∧
              ∃ d ∈ channel.devices, DeviceTakes d (clampPriority p) c i) →
              (r = false ↔ lg.state = .running ∧ ∃ chans channel, lg.shm = some chans ∧ 0 ≤ ch ∧
                chans[ch.toNat]? = some channel ∧ channel.state = .running ∧
                ChannelOk channel.cfg p c i ∧
                ∃ d ∈ channel.devices, DeviceTakes d (clampPriority p) c i) := by
            intro hiff
            rw [hiff]
            constructor
            · intro hh
              exact ⟨hst, chans, channel, hs, by omega, hget, hh⟩
            · rintro ⟨_, chans', channel', hs', _, hget', hh⟩
              rw [hs] at hs'; cases hs'
              rw [hget] at hget'; cases hget'
              exact hh
          apply uniq
          split at h
          · rename_i hcs
            simp at h; subst h; simp [hcs]
          · rename_i hcs
            have hcs : channel.state = .running := by simpa using hcs
            split at h
            · simp at h; subst h; unfold ChannelOk; simp; omega
            · rename_i hp
              simp only [Option.bind_eq_bind, Option.bind_eq_some_iff, Option.pure_def] at h
              obtain ⟨r1, h1, h⟩ := h
              have s1 := rangeFails_spec h1
              cases r1
              · simp only [Bool.false_eq_true, if_false, Option.bind_eq_some_iff] at h
                obtain ⟨r2, h2, h⟩ := h
                have s2 := rangeFails_spec h2
                cases r2
                · simp only [Bool.false_eq_true, if_false, Option.bind_eq_some_iff] at h
                  obtain ⟨r3, h3, h⟩ := h
                  have s3 := maskFails_spec h3
                  cases r3
                  · simp only [Bool.false_eq_true, if_false, Option.bind_eq_some_iff] at h
                    obtain ⟨r4, h4, h⟩ := h
                    have s4 := maskFails_spec h4
                    cases r4
                    · simp only [Bool.false_eq_true, if_false, Option.bind_eq_some_iff] at h
                      obtain ⟨nw, h5, h⟩ := h
                      have s5 := blockDevs_spec h5
                      have hcl : (if p ≥ PRIORITY_MAX then PRIORITY_FATAL else p) = clampPriority p := by
                        unfold PRIORITY_MAX PRIORITY_FATAL clampPriority; split <;> omega
                      rw [hcl] at s5
                      simp only [Option.some.injEq] at h
                      subst h
                      have hco : ChannelOk channel.cfg p c i :=
                        ⟨by omega, s1.mp rfl, s2.mp rfl, s3.mp rfl, s4.mp rfl⟩
                      simp only [Bool.not_eq_eq_eq_not, Bool.not_false, hcs, hco, true_and]
                      exact s5
                    · simp at h; subst h; unfold ChannelOk; simp_all
                  · simp at h; subst h; unfold ChannelOk; simp_all
                · simp at h; subst h; unfold ChannelOk; simp_all
              · simp at h; subst h; unfold ChannelOk; simp_all

/-- C01, definedness: the call is defined for every logger state, channel id and priority provided
the selected channel's ranges do not overflow and set masks are only applied to values in 0..63. -/
theorem C01_block_input_defined (lg : LoggerView) (ch p c i : Int)
    (h : ∀ chans, lg.shm = some chans → ∀ x, 0 ≤ ch → chans[ch.toNat]? = some x → ChanDefined x c i) :
    ∃ r, blockInput lg ch p c i = some r := by
  unfold blockInput
  split
  · exact ⟨_, rfl⟩
  · rename_i chans hs
    split
    · exact ⟨_, rfl⟩
    · split
      · exact ⟨_, rfl⟩
      · split
        · rename_i hr _ hn
          rw [List.getElem?_eq_none_iff] at hn
          omega
        · rename_i channel hget
          have hdef := h chans hs channel (by omega) hget
          obtain ⟨⟨a, b, a', b', m, m'⟩, hdev⟩ := hdef
          obtain ⟨r1, h1⟩ := rangeFails_defined (v := c) a b
          obtain ⟨r2, h2⟩ := rangeFails_defined (v := i) a' b'
          obtain ⟨r3, h3⟩ := maskFails_defined m
          obtain ⟨r4, h4⟩ := maskFails_defined m'
          obtain ⟨r5, h5⟩ := blockDevs_defined
            (p := if p ≥ PRIORITY_MAX then PRIORITY_FATAL else p) hdev
          simp only [h1, h2, h3, h4, h5, Option.bind_eq_bind, Option.bind_some, Option.pure_def]
          repeat' split
          all_goals exact ⟨_, rfl⟩

/-- C02. The devices that process a dispatched log are exactly those whose filter takes it, each once
and in device order. -/
theorem C02_dispatch_iff (devices : List Device) (p c i : Int) (r : List Nat)
    (h : dispatchLog devices p c i = some r) :
    r.Pairwise (· < ·) ∧
    ∀ k, k ∈ r ↔ ∃ d, devices[k]? = some d ∧ DeviceTakes d p c i := by
  refine ⟨dispatchFrom_sorted h, fun k => ?_⟩
  have := dispatchFrom_mem h k
  simpa using this

/-- C02, definedness. -/
theorem C02_dispatch_defined (devices : List Device) (p c i : Int)
    (h : ∀ d ∈ devices, DevDefined d c i) : ∃ r, dispatchLog devices p c i = some r :=
  dispatchFrom_defined h

/-- C03. For a priority within the enum, a running channel admits a log exactly if its own filter
passes and the dispatcher will hand it to at least one device. -/
theorem C03_admission_iff_dispatch (lg : LoggerView) (ch p c i : Int) (r : Bool) (ds : List Nat)
    (chans : List Channel) (channel : Channel)
    (hp : p < PRIORITY_MAX)
    (hrun : lg.state = .running) (hshm : lg.shm = some chans) (h0 : 0 ≤ ch)
    (hget : chans[ch.toNat]? = some channel) (hcr : channel.state = .running)
    (hb : blockInput lg ch p c i = some r)
    (hd : dispatchLog channel.devices p c i = some ds) :
    r = false ↔ ChannelOk channel.cfg p c i ∧ ds ≠ [] := by
  rw [C01_block_input_iff lg ch p c i r hb]
  have hcl : clampPriority p = p := by unfold clampPriority PRIORITY_MAX at *; omega
  have hmem := (C02_dispatch_iff _ _ _ _ _ hd).2
  have hne : ds ≠ [] ↔ ∃ d ∈ channel.devices, DeviceTakes d p c i := by
    constructor
    · intro hne
      obtain ⟨k, hk⟩ := List.exists_mem_of_ne_nil _ hne
      obtain ⟨d, hd, hT⟩ := (hmem k).mp hk
      exact ⟨d, List.mem_of_getElem? hd, hT⟩
    · rintro ⟨d, hd, hT⟩
      obtain ⟨k, hk⟩ := List.mem_iff_getElem?.mp hd
      exact List.ne_nil_of_mem ((hmem k).mpr ⟨d, hk, hT⟩)
  rw [hcl, hne]
  constructor
  · rintro ⟨_, chans', channel', hs', _, hg', _, h1, h2⟩
    rw [hshm] at hs'; cases hs'
    rw [hget] at hg'; cases hg'
    exact ⟨h1, h2⟩
  · rintro ⟨h1, h2⟩
    exact ⟨hrun, chans, channel, hshm, h0, hget, hcr, h1, h2⟩

/-- C05, filtering: a priority at or above `PRIORITY_MAX` is admitted exactly when FATAL is, for any
channel threshold that FATAL passes. -/
theorem C05_clamped_like_fatal (lg : LoggerView) (ch p c i : Int) (hp : PRIORITY_MAX ≤ p)
    (hthr : ∀ chans, lg.shm = some chans → ∀ x ∈ chans, x.cfg.priority ≤ PRIORITY_FATAL) :
    blockInput lg ch p c i = blockInput lg ch PRIORITY_FATAL c i := by
  unfold blockInput
  split
  · rfl
  · rename_i chans hs
    split
    · rfl
    · split
      · rfl
      · split
        · rfl
        · rename_i channel hget
          have := hthr chans hs channel (List.mem_of_getElem? hget)
          unfold PRIORITY_FATAL PRIORITY_MAX at *
          split
          · rfl
          · rw [if_neg (by omega), if_neg (by omega)]
            simp only [ge_iff_le, ite_self]

/-- C05, accounting of in-range priorities: publishing touches exactly the counter of the priority. -/
theorem C05_push_accounting_partial (f : Fields) (p len : Int) (h0 : 0 ≤ p) (h1 : p < PRIORITY_MAX) :
    ∃ g, accountPush f p len = some g ∧
      g (CHANNEL_LOG_PRIORITY + p.toNat) = f (CHANNEL_LOG_PRIORITY + p.toNat) + len ∧
      ∀ k, k ≠ CHANNEL_LOG_PRIORITY + p.toNat → g k = f k := by
  unfold accountPush incField CHANNEL_LOG_MAX_ID CHANNEL_LOG_PRIORITY PRIORITY_MAX at *
  have e : (((3 : Nat) : Int) + p) % 2 ^ 32 = 3 + p := by omega
  simp only [e]
  rw [if_pos (by omega)]
  refine ⟨_, rfl, ?_, ?_⟩
  · rw [if_pos (by omega)]
  · intro k hk; rw [if_neg (by omega)]

/-- C05, accounting of in-range priorities by a device: one line, `len` bytes, and `len` bytes for the
priority; nothing else changes. -/
theorem C05_device_accounting_partial (f : Fields) (p len : Int) (h0 : 0 ≤ p) (h1 : p < PRIORITY_MAX) :
    ∃ g, accountDevice f p len = some g ∧
      g DEVICE_LOG_TOTAL_WRITE_LINE = f DEVICE_LOG_TOTAL_WRITE_LINE + 1 ∧
      g DEVICE_LOG_TOTAL_WRITE_BYTE = f DEVICE_LOG_TOTAL_WRITE_BYTE + len ∧
      g (DEVICE_LOG_PRIORITY + p.toNat) = f (DEVICE_LOG_PRIORITY + p.toNat) + len ∧
      ∀ k, k ≠ DEVICE_LOG_TOTAL_WRITE_LINE → k ≠ DEVICE_LOG_TOTAL_WRITE_BYTE →
        k ≠ DEVICE_LOG_PRIORITY + p.toNat → g k = f k := by
  unfold accountDevice incField DEVICE_LOG_MAX_ID DEVICE_LOG_PRIORITY DEVICE_LOG_TOTAL_WRITE_LINE
    DEVICE_LOG_TOTAL_WRITE_BYTE PRIORITY_MAX at *
  have e : (((7 : Nat) : Int) + p) % 2 ^ 32 = 7 + p := by omega
  have e1 : ((((15 : Nat) : Int)) % 2 ^ 32).toNat = 15 := by omega
  have e2 : ((((16 : Nat) : Int)) % 2 ^ 32).toNat = 16 := by omega
  have e3 : (7 + p).toNat = 7 + p.toNat := by omega
  simp only [e, e1, e2, e3, Option.bind_eq_bind]
  rw [if_pos (by omega), Option.bind_some, if_pos (by omega), Option.bind_some, if_pos (by omega)]
  refine ⟨_, rfl, ?_, ?_, ?_, ?_⟩
  · simp; omega
  · simp; omega
  · simp; omega
  · intro k h1 h2 h3; simp [h1, h2, h3]

/-- A running logger with one channel and one screen device and no filters. -/
def demoLogger : LoggerView :=
  { state := .running,
    shm := some [{ state := .running, devices := [{ outType := .screen, cfg := { able := 1 } }] }] }

/-- C05 fails in general: a log of priority 8 is admitted, and the device that receives it books it as
`len` extra lines (`DEVICE_LOG_TOTAL_WRITE_LINE` grows by `len + 1`). -/
theorem C05_counterexample :
    blockInput demoLogger 0 8 0 0 = some false ∧
    ∀ (f : Fields) (len : Int), ∃ g, accountDevice f 8 len = some g ∧
      g DEVICE_LOG_TOTAL_WRITE_LINE = f DEVICE_LOG_TOTAL_WRITE_LINE + 1 + len := by
  refine ⟨by decide, fun f len => ?_⟩
  refine ⟨_, rfl, ?_⟩
  simp [DEVICE_LOG_TOTAL_WRITE_LINE, DEVICE_LOG_PRIORITY, DEVICE_LOG_TOTAL_WRITE_BYTE]

/-- C05 fails in general: priority 22 is admitted too and its accounting leaves the array. -/
theorem C05_counterexample_oob :
    blockInput demoLogger 0 22 0 0 = some false ∧ ∀ f len, accountPush f 22 len = none := by
  refine ⟨by decide, fun f len => rfl⟩

/-! Concrete cases: the hypotheses above are met by ordinary configurations. -/

/-- a device with category white list {1,3}, identify range [10, 20) and threshold INFO -/
def demoDevice : Device :=
  { outType := .screen, cfg := { able := 1, priority := 2, categoryMask := 0b1010,
                                 identify := 10, identifyExtend := 10 } }

example : dispatchLog [demoDevice, {}, { demoDevice with inType := .udp }, demoDevice] 3 1 15
    = some [0, 3] := by decide
example : dispatchLog [demoDevice] 3 2 15 = some [] := by decide
example : dispatchLog [demoDevice] 1 1 15 = some [] := by decide
example : dispatchLog [demoDevice] 3 1 20 = some [] := by decide
/-- a set mask applied to category 64 is undefined -/
example : dispatchLog [demoDevice] 3 64 15 = none := by decide
example : DevDefined demoDevice 1 15 := by
  unfold DevDefined FilterDefined demoDevice; simp
example : blockInput demoLogger 0 3 5 7 = some false := by decide
example : blockInput demoLogger 1 3 5 7 = some true := by decide
example : ∀ chans, demoLogger.shm = some chans → ∀ x ∈ chans, x.cfg.priority ≤ PRIORITY_FATAL := by
  intro chans h; simp [demoLogger] at h; subst h; simp [PRIORITY_FATAL]

end FNLog
