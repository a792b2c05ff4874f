import Verif.Model.Counters
import Verif.Spec.Counters

/-!
# C94: every statistic has its own counter

The statistics of a channel and of a device are kept in arrays indexed by enumerators; the bytes by priority take one counter
for each priority.  No two statistics share a counter, all are inside of their array, and adding to one changes no other.
-/

namespace FNLog
open Spec

/-- The counters of a channel that are used: seven by priority. -/
def channelCounters : List Nat :=
  [CHANNEL_LOG_WAIT_COUNT, CHANNEL_LOG_HOLD, CHANNEL_LOG_PUSH] ++ (List.range 7).map (CHANNEL_LOG_PRIORITY + ·) ++
  [CHANNEL_LOG_PROCESSED, CHANNEL_LOG_PROCESSED_BYTES, CHANNEL_LOG_MAX_PROC_QUE_SIZE, CHANNEL_LOG_MAX_DELAY_TIME_S,
    CHANNEL_LOG_HOTUPDATE_CHECK, CHANNEL_LOG_HOTUPDATE_CHANGE]

/-- The counters of a device. -/
def deviceCounters : List Nat :=
  [DEVICE_LOG_CUR_FILE_SIZE, DEVICE_LOG_CUR_FILE_CREATE_TIMESTAMP, DEVICE_LOG_CUR_FILE_CREATE_DAY,
    DEVICE_LOG_CUR_FILE_CREATE_HOUR, DEVICE_LOG_LAST_TRY_CREATE_TIMESTAMP, DEVICE_LOG_LAST_TRY_CREATE_ERROR,
    DEVICE_LOG_LAST_TRY_CREATE_CNT] ++ (List.range 7).map (DEVICE_LOG_PRIORITY + ·) ++
  [DEVICE_LOG_TOTAL_WRITE_LINE, DEVICE_LOG_TOTAL_WRITE_BYTE, DEVICE_LOG_TOTAL_LOSE_LINE]

/-- The enumerators have the numbers that C++ gives them. -/
theorem C94_enumerators :
    deviceLogEnum = [DEVICE_LOG_CUR_FILE_SIZE, DEVICE_LOG_CUR_FILE_CREATE_TIMESTAMP, DEVICE_LOG_CUR_FILE_CREATE_DAY,
      DEVICE_LOG_CUR_FILE_CREATE_HOUR, DEVICE_LOG_LAST_TRY_CREATE_TIMESTAMP, DEVICE_LOG_LAST_TRY_CREATE_ERROR,
      DEVICE_LOG_LAST_TRY_CREATE_CNT, DEVICE_LOG_PRIORITY, DEVICE_LOG_PRIORITY_MAX, DEVICE_LOG_TOTAL_WRITE_LINE,
      DEVICE_LOG_TOTAL_WRITE_BYTE, DEVICE_LOG_TOTAL_LOSE_LINE, DEVICE_LOG_MAX_ID] ∧
    channelLogEnum = [CHANNEL_LOG_WAIT_COUNT, CHANNEL_LOG_HOLD, CHANNEL_LOG_PUSH, CHANNEL_LOG_PRIORITY,
      CHANNEL_LOG_PRIORITY_MAX, CHANNEL_LOG_BOUND, CHANNEL_LOG_PROCESSED, CHANNEL_LOG_PROCESSED_BYTES,
      CHANNEL_LOG_MAX_PROC_QUE_SIZE, CHANNEL_LOG_MAX_DELAY_TIME_S, CHANNEL_LOG_HOTUPDATE_CHECK,
      CHANNEL_LOG_HOTUPDATE_CHANGE, CHANNEL_LOG_MAX_ID] := by
  decide

theorem incField_inside {size e : Nat} (h : e < size) (hs : size ≤ 2 ^ 32) (f : Fields) (v : Int) :
    ∃ g, incField size f e v = some g ∧ g e = f e + v ∧ ∀ k, k ≠ e → g k = f k := by
  have he : ((e : Int) % 2 ^ 32).toNat = e := by omega
  unfold incField
  simp only [he, if_pos h]
  exact ⟨_, rfl, by simp, fun k hk => by simp [hk]⟩

/-- **C94**: adding to the `i`-th statistic of a channel or of a device is defined, changes this one by the amount, and none of
the others. -/
theorem C94_own_counter (i : Nat) (f : Fields) (v : Int) :
    (∀ (h : i < channelCounters.length), ∃ g, incField CHANNEL_LOG_MAX_ID f channelCounters[i] v = some g ∧
      g channelCounters[i] = f channelCounters[i] + v ∧
      ∀ (j : Nat) (hj : j < channelCounters.length), j ≠ i → g channelCounters[j] = f channelCounters[j]) ∧
    (∀ (h : i < deviceCounters.length), ∃ g, incField DEVICE_LOG_MAX_ID f deviceCounters[i] v = some g ∧
      g deviceCounters[i] = f deviceCounters[i] + v ∧
      ∀ (j : Nat) (hj : j < deviceCounters.length), j ≠ i → g deviceCounters[j] = f deviceCounters[j]) := by
  have key : ∀ (l : List Nat) (size : Nat), l.Nodup → (∀ x ∈ l, x < size) → size ≤ 2 ^ 32 → ∀ (h : i < l.length),
      ∃ g, incField size f l[i] v = some g ∧ g l[i] = f l[i] + v ∧ ∀ (j : Nat) (hj : j < l.length), j ≠ i → g l[j] = f l[j] := by
    intro l size hn hm hs h
    obtain ⟨g, h1, h2, h3⟩ := incField_inside (hm l[i] (List.getElem_mem h)) hs f v
    exact ⟨g, h1, h2, fun j hj hij => h3 _ fun e => hij ((List.getElem_inj hn).mp e)⟩
  exact ⟨key _ _ (by decide) (by decide) (by decide), key _ _ (by decide) (by decide) (by decide)⟩

end FNLog
