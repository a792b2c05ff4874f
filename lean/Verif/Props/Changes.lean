import Verif.Props.LineDays
import Verif.Props.Statement

/-!
# Log statements in zones with clock changes

The theorems on log statements (C60, C61, C64 and those that build on them) speak of every zone; of the timestamps they need
`Zone.Printed`.  Here: which timestamps that are.
-/

namespace FNLog
open Spec

/-- In a zone with clock changes: the points in time of days without a change. -/
theorem Zone.Steady.printed {z : Zone} {off : Int → Int} (hb : ByOffset z off) {t : Int} {ms : Nat} (h : z.Steady off t ms) :
    z.Printed t ms := by
  obtain ⟨hp, hst⟩ := h
  have hin := fixedZone_covers (off t) t
  refine ⟨hp, by rw [hb.begins t]; exact hin, fun x h1 h2 => ?_, ?_⟩
  · have ho := hst x h1 h2
    rw [hb.begins x] at h1 h2
    obtain ⟨a, b, c, d, _⟩ := fixedZone_uniform (off x) x t h1 h2
    rw [hb.begins x, hb.clock x, hb.clock t, ← ho]
    exact ⟨a, b, c, d⟩
  · rw [hb.clock t]
    exact (fixedZone_uniform (off t) t t hin.1 hin.2).2.2.2.2

/-- On the day of a change there are points in time that are not: half past two in the morning after the clocks were put
back at three is half past three in the count of the code, if the thread has printed a time of the early morning before. -/
theorem printed_counterexample : ¬ (changeZone 1698541200 7200 3600).Regular (1698541200 + 1800) := by
  intro h
  have h2 := (h.day 1698530400 (by decide +kernel) (by decide +kernel)).2.2.2
  exact absurd h2 (by decide +kernel)

/-- The channel of the demo in a place that puts the clocks back on 29 October 2023. -/
def changeSetup : Setup := { demoSetup with env := { demoEnv 500 with zone := changeZone 1698541200 7200 3600 } }

theorem change_ready : Ready changeSetup where
  lib := demo_ready.lib
  zone := (changeZone_byOffset 1698541200 7200 3600).sane
  slots := demo_ready.slots
  nl := rfl
  id := demo_ready.id
  channel := ⟨_, rfl, rfl⟩
  hook := fun h => absurd h (by decide)
  named := demo_ready.named

theorem change_fits {ts : Int} (h : ts = 1697000000 ∨ ts = 1700000000) (ops : List StreamOp)
    (hv : ∀ v ∈ written ops, Val.All (Val.Fine (fun _ _ => True) fun _ => True) v) :
    Fits changeSetup.env changeSetup.names { demoCall 2 with ts := ts } ops "a.cpp".toList where
  slot := List.length_replicate
  args := by rcases h with rfl | rfl <;> exact ⟨by decide, by decide, by decide, by decide, by decide⟩
  date := by
    rcases h with rfl | rfl
    · exact C25_case_changes.2.1.printed (changeZone_byOffset 1698541200 7200 3600)
    · exact C25_case_changes.1.printed (changeZone_byOffset 1698541200 7200 3600)
  short := (demo_fits 2 (Or.inr (Or.inl rfl)) ops hv).short
  names := by show 5 + 1 + 398 ≤ 500; decide
  vals := hv

/-- A statement in winter and one in summer, in this order. -/
def changeProg : List (Call × List StreamOp) :=
  [({ demoCall 2 with ts := 1700000000 }, [.put (.str "winter".toList)]),
   ({ demoCall 2 with ts := 1697000000 }, [.put (.str "summer".toList)])]

/-- The hypotheses of C64 hold for them. -/
theorem C64_case_changes : Ready changeSetup ∧ FilesApart changeSetup.fenv changeSetup.channel.id changeSetup.channel.devices ∧
    (∀ x ∈ changeProg, Sound changeSetup x.1 x.2) ∧
    (statements changeSetup changeProg demoSys).map (fun s => s.out.fs "a.log".toList) =
      some (some ["[20231114 23:13:20.417][INFO ][a.cpp:17](f) winter\n".toList,
        "[20231011 06:53:20.417][INFO ][a.cpp:17](f) summer\n".toList]) := by
  refine ⟨change_ready, demo_apart, fun x hx => ?_, by kernel_rfl⟩
  have hd : ∀ c i, ∀ d ∈ demoChannel.devices, DevDefined d c i := demo_defined
  have hc : ∀ c i, ChanDefined demoChannel c i := fun c i =>
    ⟨⟨by decide, by decide, by decide, by decide, Or.inl (by decide), Or.inl (by decide)⟩, hd c i⟩
  simp only [changeProg, List.mem_cons, List.not_mem_nil, or_false] at hx
  rcases hx with rfl | rfl
  · refine ⟨rfl, hc _ _, hd _ _, _, change_fits (Or.inr rfl) _ ?_⟩
    intro v hv
    simp only [written, List.mem_cons, List.not_mem_nil, or_false] at hv
    rcases hv with rfl; simp [Val.All, Val.Fine]
  · refine ⟨rfl, hc _ _, hd _ _, _, change_fits (Or.inl rfl) _ ?_⟩
    intro v hv
    simp only [written, List.mem_cons, List.not_mem_nil, or_false] at hv
    rcases hv with rfl; simp [Val.All, Val.Fine]

/-- **C25** in any zone, with timestamps of days without a clock change among the values. -/
theorem C25_printed_partial (E : Env) (hlib : E.lib.Sane) (hz : E.zone.Sane) (r : Rec) (hr : r.content.length = E.N)
    (dates : List Int) (vs : List Val) (text : List Char) (ht : text = lineText ⟨doubleText E.lib, localDate E.zone⟩ r.len vs)
    (hroom : r.len + text.length + 40 < E.N)
    (hv : ∀ v ∈ vs, Val.All (Val.Fine E.zone.Printed (fun n => r.len + text.length + n < E.N)) v) :
    ∃ r' c' r'', streamAll E ⟨some r, cacheAfter E.zone dates⟩ vs = some ⟨some r', c'⟩ ∧
      sealRec E.N r' = some r'' ∧ r''.content.take r''.len = r.content.take r.len ++ text ++ ['\n'] :=
  line_of_dates E hlib hz (fun _ _ h _ hc => (dateOut_printed h hc).1) r hr dates vs text ht hroom hv

/-- A value of this kind: a point in time far from the change. -/
theorem C25_case_printed : (changeZone 1698541200 7200 3600).Printed 1700000000 417 :=
  C25_case_changes.1.printed (changeZone_byOffset 1698541200 7200 3600)

/-- **C116**, points in time, in any zone. -/
theorem C116_time_printed_partial (E : Env) (hlib : E.lib.Sane) (hz : E.zone.Sane) (r : Rec)
    (hr : r.content.length = E.N) (hroom : r.len + 70 < E.N) (dates : List Int) (ms : Int)
    (hms : 0 ≤ ms ∨ ms % 1000 = 0) (s : Int) (p : Nat) (he : ms = s * 1000 + p) (h : E.zone.Printed s p) :
    Prints E r (cacheAfter E.zone dates) (stampMs ms) (localDate E.zone s p) := by
  have hp : p < 1000 := h.1.2.2
  have e1 : ms.tdiv 1000 = s := by
    rcases hms with h | h
    · rw [Int.tdiv_eq_ediv_of_nonneg h]; omega
    · rw [Int.tdiv_eq_ediv_of_dvd (by omega)]; omega
  have e2 : toUInt (ms.tmod 1000) = p := by
    have := Int.mul_tdiv_add_tmod ms 1000
    rw [e1] at this
    unfold toUInt
    rw [show ms.tmod 1000 = (p : Int) by omega]
    omega
  have hlen := (dateOut_printed h (cacheAfter_ok E.zone [])).2
  unfold stampMs stampOf
  rw [e1, e2]
  have ht : localDate E.zone s p = lineText ⟨doubleText E.lib, localDate E.zone⟩ r.len [.stamp s p] := by
    simp only [lineText, Val.text, List.append_nil]
  exact C25_printed_partial E hlib hz r hr dates [.stamp s p] _ ht (by omega) (by
    intro v hv
    rw [List.mem_singleton] at hv
    subst hv
    exact h)

end FNLog
