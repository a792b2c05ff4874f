import Verif.Model.Texts
import Verif.Props.Config
import Verif.Proof.KernelRfl

/-! # Property theorem C62: the configuration texts shipped with the library -/

namespace FNLog
open Spec

/-- The text is refused with this error. -/
def Rejects (dns : List Char → Option Int) (garbage : Int) (t : List Char) (e : PErr) : Prop :=
  ∃ fuel, parseLogger dns garbage fuel t = .err e

/-- A text is not accepted and refused at the same time. -/
theorem Rejects.not_accepts {dns : List Char → Option Int} {garbage : Int} {t : List Char} {e : PErr}
    (h : Rejects dns garbage t e) (g : Config) : ¬ Accepts dns garbage t g := by
  obtain ⟨a, ha⟩ := h
  rintro ⟨b, hb⟩
  have h1 := parseLogger_stable (Nat.le_max_left a b) (by rw [ha]; nofun)
  have h2 := parseLogger_stable (Nat.le_max_right a b) (by rw [hb]; nofun)
  rw [ha] at h1
  rw [h1, hb] at h2
  exact absurd h2 nofun

def defaultFile (id : Int) (priority : Int) (file : String) : Device :=
  { id, outType := .file, file := file.toList, cfg := { able := 1, priority, limitSize := 100000000, rollback := 4 } }

def defaultScreen (id : Int) : Device := { id, outType := .screen, cfg := { able := 1, priority := 2 } }

/-- **C62, proved part.** The configuration of `FastStartDefaultLogger` is accepted; it has the two channels
and the six devices that the comments in it promise.  What is missing: the manual's examples are refused. -/
theorem C62_default_text_partial (dns : List Char → Option Int) (garbage : Int) :
    Accepts dns garbage defaultText
      { shmKey := garbage,
        channels :=
          [{ id := 0, type := .async,
             devices := [defaultFile 0 0 "$PNAME", defaultFile 1 4 "$PNAME_error", defaultScreen 2] },
           { id := 1, type := .sync,
             devices := [defaultFile 0 0 "$PNAME_sync", defaultFile 1 2 "$PNAME_sync_info", defaultScreen 2] }] } :=
  ⟨500, by kernel_rfl⟩

/-- **C62, failure.** The example of "Fast Use Example With Yaml File" is refused: it has four channels and
two are allowed by default. -/
theorem C62_manual_fast_use_counterexample (dns : List Char → Option Int) (garbage : Int) :
    Rejects dns garbage manualFastUse .invalidChannelSize :=
  ⟨500, by kernel_rfl⟩

/-- **C62, failure.** The example `default_log.yaml` of the manual is refused at `- def: EMPTY______`. -/
theorem C62_manual_default_log_counterexample (dns : List Char → Option Int) (garbage : Int) :
    Rejects dns garbage manualDefaultLog .notClosure :=
  ⟨500, by kernel_rfl⟩

/-- **C62, failure.** The file `bin/log.yaml` of the test is refused for the same reason as the first
example. -/
theorem C62_bin_log_counterexample (dns : List Char → Option Int) (garbage : Int) :
    Rejects dns garbage binLog .invalidChannelSize :=
  ⟨500, by kernel_rfl⟩

/-- **C62, failure.** The file `default_log.yaml` of the distribution is refused. -/
theorem C62_dist_default_log_counterexample (dns : List Char → Option Int) (garbage : Int) :
    Rejects dns garbage distDefaultLog .notClosure :=
  ⟨500, by kernel_rfl⟩

/-- **C62, failure.** The other three variable and macro lines of the manual's example are refused as well. -/
theorem C62_manual_var_counterexample (dns : List Char → Option Int) (garbage : Int) :
    Rejects dns garbage "- var: id = 234\n- channel: 0\n".toList .definedTargetTooLong ∧
    Rejects dns garbage "- var: {key=\"sss\", val=999}\n- channel: 0\n".toList .definedTargetTooLong :=
  ⟨⟨500, by kernel_rfl⟩, ⟨500, by kernel_rfl⟩⟩

/-- **C62, failure.** The manual's `sync_write: 1` and the values `SYNC` and `TRUE` it lists are accepted and
ignored: the channel stays asynchronous, the device enabled. -/
theorem C62_manual_values_counterexample (dns : List Char → Option Int) (garbage : Int) :
    Accepts dns garbage "- channel: 0\n sync_write: 1\n".toList { shmKey := garbage, channels := [{ type := .async }] } ∧
    Accepts dns garbage "- channel: 0\n sync: SYNC\n".toList { shmKey := garbage, channels := [{ type := .async }] } :=
  ⟨⟨500, by kernel_rfl⟩, ⟨500, by kernel_rfl⟩⟩

end FNLog
