import Verif.Proof.Bridge
import Verif.Props.Fleet

/-!
# C121: channels that forward their records to another channel with a hook

The test test_trans_log.cpp logs to two channels with a virtual device whose hook is `TransmitChannel` to a third, and expects as many lines in
its file.
-/

namespace FNLog
open Spec

/-- One thread logs any sequence of statements on the sources; the hook transmits what it is called with to another channel.  Nothing is
undefined, every source outputs the records of its admitted statements in program order, as without a hook, and the target outputs exactly the
copies of those records that the virtual device of their source accepts and that the target admits: the same lines with the same fields, in program
order over all sources.  They are handed to the devices of the target in this order, and a copy does not call the hook again. -/
theorem C121_forwarded {src : Nat → Setup} {B : Setup} (hB : Ready B) : ∀ {prog : List Item} {w : Web}, (∀ x ∈ prog, SoundItem src B x) →
    WebOk src B w →
    ∃ recs copies w', Bridged src B prog recs copies ∧ bridge src B prog w = some w' ∧ WebOk src B w' ∧
      (∀ i, (w'.a i).ring.out = (w.a i).ring.out ++ cells (w.a i).ring.out.length (ofSource i recs)) ∧
      w'.b.ring.out = w.b.ring.out ++ cells w.b.ring.out.length copies ∧
      deliverAll B (cells w.b.ring.out.length copies) w.b.out = some w'.b.out ∧
      w'.b.hooked = w.b.hooked := by
  intro prog
  induction prog with
  | nil =>
    intro w _ hw
    exact ⟨[], [], w, .nil, rfl, hw, fun i => by simp [ofSource, cells], by simp [cells], rfl, rfl⟩
  | cons x rest ih =>
    intro w hx hw
    have hrest : ∀ y ∈ rest, SoundItem src B y := fun y hy => hx y (List.mem_cons_of_mem _ hy)
    rcases bridgeStatement_ok hB (hx x List.mem_cons_self) hw with ⟨hna, w1, e1, ok1, a1, b1⟩ | ⟨hadm, file, t, w1, hf, hrec, e1, ok1, k1, o1, u1, d1⟩
    · obtain ⟨recs, copies, w', g1, g2, g3, g4, g5, g6, g7⟩ := ih hrest ok1
      refine ⟨recs, copies, w', .refused hna g1, ?_, g3, ?_, ?_, ?_, ?_⟩
      · rw [bridge, e1]; exact g2
      · intro i; rw [g4 i, a1 i]
      · rw [g5, b1]
      · rw [← b1]; exact g6
      · rw [g7, b1]
    · obtain ⟨recs, copies, w', g1, g2, g3, g4, g5, g6, g7⟩ := ih hrest ok1
      have hrun : bridge src B (x :: rest) w = some w' := by rw [bridge, e1]; exact g2
      have hout : ∀ (h : Head) (line : List Char), (w1.a x.src).ring.out = (w.a x.src).ring.out ++ [((w.a x.src).ring.out.length, cellOf h line)] →
          ∀ i, (w'.a i).ring.out = (w.a i).ring.out ++ cells (w.a i).ring.out.length (ofSource i ((x.src, h, line) :: recs)) := by
        intro h line ho i
        rw [g4 i]
        by_cases hi : i = x.src
        · subst hi
          have : ofSource x.src ((x.src, h, line) :: recs) = (h, line) :: ofSource x.src recs := by
            unfold ofSource; rw [List.filter_cons_of_pos (by simp)]; rfl
          rw [this, ho, cells, List.length_append, List.append_assoc]; rfl
        · have : ofSource i ((x.src, h, line) :: recs) = ofSource i recs := by
            unfold ofSource
            rw [List.filter_cons_of_neg (by simpa using fun e : x.src = i => hi e.symm)]
          rw [this, u1 i hi]
      rcases d1 with ⟨hfw, t1, t2⟩ | ⟨hnf, t1⟩
      · refine ⟨_, _, w', .forwarded hadm hf hrec hfw g1, hrun, g3, hout _ _ o1, ?_, ?_, g7.trans k1⟩
        · rw [g5, t1, cells, List.length_append, List.append_assoc]; rfl
        · rw [cells, deliverAll, t2]
          simp only [Option.bind_eq_bind, Option.bind_some]
          rw [t1, List.length_append] at g6
          exact g6
      · refine ⟨_, _, w', .kept hadm hf hrec hnf g1, hrun, g3, hout _ _ o1, ?_, ?_, g7.trans k1⟩
        · rw [g5, t1]
        · rw [← t1]; exact g6

/-- To its source a statement does what it does without the hook transmitting, and nothing to the other sources. -/
theorem C121_undisturbed {src : Nat → Setup} {B : Setup} {x : Item} {w w' : Web} (h : bridgeStatement src B x w = some w') :
    statement (src x.src) x.call x.ops { w.a x.src with cache := w.cache } = some (w'.a x.src) ∧ (∀ j, j ≠ x.src → w'.a j = w.a j) ∧
      w'.cache = (w'.a x.src).cache := by
  unfold bridgeStatement at h
  unfold statement
  cases hc : construct (src x.src).env (src x.src).names (src x.src).lg x.call w.cache with
  | none => rw [hc] at h; cases h
  | some t =>
    rw [hc] at h
    simp only [Option.bind_eq_bind, Option.bind_some] at h ⊢
    cases ho : operateAll (src x.src).env t x.ops with
    | none => rw [ho] at h; cases h
    | some t1 =>
      rw [ho] at h
      simp only [Option.bind_some] at h ⊢
      cases hd : destructWith (src x.src) B x.junk t1 (w.a x.src) w.b with
      | none => rw [hd] at h; cases h
      | some y =>
        obtain ⟨sa, sb⟩ := y
        rw [hd] at h
        simp only [Option.bind_some, Option.some.injEq] at h
        subst h
        refine ⟨?_, fun j hj => by simp only [if_neg hj], by simp only [if_true]⟩
        simp only [if_true]
        unfold destructWith at hd
        unfold destruct
        cases hh : t1.head with
        | none => rw [hh] at hd; cases hd; rfl
        | some hd1 =>
          rw [hh] at hd
          cases hr : t1.strm.data with
          | none => rw [hr] at hd; cases hd; rfl
          | some r => rw [hr] at hd; exact destructVia_fst hd

/-- A target device that writes one file: while the operating system opens and writes the file, exactly the forwarded lines that the filter of the
device takes are appended to it. -/
theorem C121_file {src : Nat → Setup} {B : Setup} (hB : Ready B) (hap : FilesApart B.fenv B.channel.id B.channel.devices) {prog : List Item} {w : Web}
    (hx : ∀ x ∈ prog, SoundItem src B x) (hw : WebOk src B w) (ho : Own B.fenv B.channel.id B.channel.devices w.b.out)
    {k : Nat} {d : Device} (hk : B.channel.devices[k]? = some d) (hd : d.outType = .file)
    (h1 : d.cfg.rollback ≤ 0) (h2 : d.cfg.limitSize ≤ 0) (h3 : d.cfg.rolldaily = 0) (h4 : d.cfg.rollhourly = 0)
    {F : List Char} (hlen : F.length < 250) (hF : ∀ ts, fullPath B.fenv.proc (B.fenv.tm ts) B.fenv.fuel d B.channel.id = some F)
    (hos : ∀ n, (B.os n k).opens = true ∧ (B.os n k).short = none)
    (hh : (w.b.out.dev k).handle = some F ∨ (w.b.out.dev k).handle = none ∧
      ∀ x ∈ prog, (w.b.out.dev k).logs DEVICE_LOG_LAST_TRY_CREATE_TIMESTAMP + 5 ≤ x.call.ts) :
    ∃ recs copies w', Bridged src B prog recs copies ∧ bridge src B prog w = some w' ∧
      (w'.b.out.fs F).getD [] = (w.b.out.fs F).getD [] ++ linesFor d copies := by
  obtain ⟨recs, copies, w', g1, g2, _, _, _, g6, _⟩ := C121_forwarded hB hx hw
  refine ⟨recs, copies, w', g1, g2, ?_⟩
  obtain ⟨_, t2, _⟩ := deliverAll_tracks hap ho g6
  obtain ⟨tk, t, hr, hs⟩ := t2 k d (view w.b.out k) hk hd ⟨rfl, rfl, fun _ _ => rfl, fun p hp => ho k d p hk hd hp⟩
  have hline := bridged_lines g1
  obtain ⟨_, e2, _⟩ := simple_runs h1 h2 h3 h4 hlen hF hr
    (by
      intro log hm
      obtain ⟨m, r, hr, rfl⟩ := handed_mem hm
      exact ⟨(hos m).1, (hos m).2, (hline r hr).1⟩)
    (hh.imp id fun h => ⟨h.1, by
      intro log hm
      obtain ⟨m, r, hr, rfl⟩ := handed_mem hm
      obtain ⟨_, x, hx, e⟩ := hline r hr
      show _ ≤ r.1.ts
      rw [e]
      exact h.2 x hx⟩)
  rw [handed_lines] at e2
  have hfs : w'.b.out.fs F = t.fs F := (hs.fs F (filesOf_path (hF 0))).symm
  rw [hfs, e2]
  rfl

/-- When the virtual devices of the sources accept everything and the target admits everything, the target outputs the lines of all sources in
program order (test_trans_log.cpp 87: as many lines as have been logged). -/
theorem C121_all {src : Nat → Setup} {B : Setup} {prog : List Item} {recs : List (Nat × Head × List Char)} {copies : List (Head × List Char)}
    (h : Bridged src B prog recs copies) (hf : ∀ x ∈ recs, Forwards (src x.1) B x.2.1) :
    copies = recs.map fun x => (copyHead B x.2.1, x.2.2) := by
  induction h with
  | nil => rfl
  | refused _ _ ih => exact ih hf
  | kept _ _ _ hn _ _ => exact absurd (hf _ List.mem_cons_self) hn
  | forwarded _ _ _ _ _ ih =>
    rw [List.map_cons, ih fun x hx => hf x (List.mem_cons_of_mem _ hx)]

/-! Two sources, one whose virtual device takes warnings, and a target for informations. -/

def bridgeSource (i : Nat) (c : Char) (p : Int) : Channel :=
  { id := i, type := .sync, state := .running, virtualDeviceId := 1
    devices := [demoFile 0 c 1, { id := 1, outType := .virtual, cfg := { able := 1, priority := p } }] }

def bridgeTarget : Channel := { id := 2, type := .sync, state := .running, cfg := { priority := 2 }, devices := [demoFile 0 'c' 1] }

def bridgeLg : LoggerView := ⟨.running, some [bridgeSource 0 'a' 3, bridgeSource 1 'b' 0, bridgeTarget]⟩

def bridgeSetup (ch : Channel) : Setup := { demoSetup with channel := ch, lg := bridgeLg, hook := true }

def bridgeSrc : Nat → Setup
  | 0 => bridgeSetup (bridgeSource 0 'a' 3)
  | _ => bridgeSetup (bridgeSource 1 'b' 0)

def bridgeItem (i : Nat) (p : Int) (text : List Char) : Item :=
  ⟨i, { demoCall p with channelId := i }, [.put (.str text)], List.replicate 500 '#'⟩

/-- A warning of the first source, an information of it, a warning and a trace of the second (`FN_LOG_MAX_CHANNEL_SIZE` is 4 in the test). -/
def bridgeProg : List Item :=
  [bridgeItem 0 4 "one".toList, bridgeItem 0 2 "two".toList, bridgeItem 1 4 "three".toList, bridgeItem 1 0 "four".toList]

def bridgeSys : Sys := ⟨after demoSetup.cfg [.started], ⟨fun _ => none, fun _ => {}, [], []⟩, .zero, []⟩

def bridgeWeb : Web := ⟨fun _ => bridgeSys, bridgeSys, .zero⟩

theorem bridge_path (i : Nat) (c : Char) (hc : c = 'a' ∨ c = 'b' ∨ c = 'c') (p ts ch : Int) :
    fullPath demoSetup.fenv.proc (demoSetup.fenv.tm ts) demoSetup.fenv.fuel (demoFile i c p) ch = some (c :: ".log".toList) := by
  rcases hc with rfl | rfl | rfl <;> rfl

theorem bridge_ready {ch : Channel} (h : ch = bridgeSource 0 'a' 3 ∨ ch = bridgeSource 1 'b' 0 ∨ ch = bridgeTarget) : Ready (bridgeSetup ch) where
  lib := demo_ready.lib
  zone := demo_ready.zone
  slots := demo_ready.slots
  nl := demo_ready.nl
  id := by rcases h with rfl | rfl | rfl <;> decide
  channel := by rcases h with rfl | rfl | rfl <;> exact ⟨_, rfl, rfl⟩
  hook := fun _ => by rcases h with rfl | rfl | rfl <;> decide
  named := by
    intro d hd hf ts
    rcases h with rfl | rfl | rfl <;>
      simp only [bridgeSetup, bridgeSource, bridgeTarget, List.mem_cons, List.not_mem_nil, or_false] at hd
    · rcases hd with rfl | rfl
      · exact ⟨_, bridge_path 0 'a' (by decide) 1 ts _⟩
      · cases hf
    · rcases hd with rfl | rfl
      · exact ⟨_, bridge_path 0 'b' (by decide) 1 ts _⟩
      · cases hf
    · obtain rfl := hd
      exact ⟨_, bridge_path 0 'c' (by decide) 1 ts _⟩

theorem bridge_defined {ch : Channel} (h : ch = bridgeSource 0 'a' 3 ∨ ch = bridgeSource 1 'b' 0 ∨ ch = bridgeTarget) (c i : Int) :
    ChanDefined ch c i := by
  have hd : ∀ d ∈ ch.devices, DevDefined d c i := by
    intro d hd
    rcases h with rfl | rfl | rfl <;>
      simp only [bridgeSource, bridgeTarget, List.mem_cons, List.not_mem_nil, or_false] at hd
    · rcases hd with rfl | rfl <;> exact ⟨by decide, by decide, by decide, by decide, Or.inl (by decide), Or.inl (by decide)⟩
    · rcases hd with rfl | rfl <;> exact ⟨by decide, by decide, by decide, by decide, Or.inl (by decide), Or.inl (by decide)⟩
    · obtain rfl := hd; exact ⟨by decide, by decide, by decide, by decide, Or.inl (by decide), Or.inl (by decide)⟩
  refine ⟨?_, hd⟩
  rcases h with rfl | rfl | rfl <;> exact ⟨by decide, by decide, by decide, by decide, Or.inl (by decide), Or.inl (by decide)⟩

theorem bridge_sound : ∀ x ∈ bridgeProg, SoundItem bridgeSrc (bridgeSetup bridgeTarget) x := by
  have key : ∀ (i : Nat) (p : Int) (text : List Char), i = 0 ∨ i = 1 → p = 0 ∨ p = 2 ∨ p = 4 →
      SoundItem bridgeSrc (bridgeSetup bridgeTarget) (bridgeItem i p text) := by
    intro i p text hi hp
    have hf : Fits demoSetup.env demoSetup.names (demoCall p) [.put (.str text)] "a.cpp".toList := demo_fits p hp _ (by
      intro v hv
      simp only [written, List.mem_cons, List.not_mem_nil, or_false] at hv
      subst hv
      trivial)
    have hf' : ∀ i : Nat, i = 0 ∨ i = 1 →
        Fits demoSetup.env demoSetup.names { demoCall p with channelId := i } [.put (.str text)] "a.cpp".toList := by
      intro i hi
      obtain ⟨a, ⟨b1, b2, b3, b4, b5⟩, c, d, e, f⟩ := hf
      exact ⟨a, ⟨b1, b2, b3, b4, b5⟩, c, d, e, f⟩
    rcases hi with rfl | rfl
    · exact ⟨bridge_ready (Or.inl rfl), rfl, (by decide : (0 : Int) ≠ 2), ⟨rfl, bridge_defined (Or.inl rfl) _ _, (bridge_defined (Or.inl rfl) _ _).2, _, hf' 0 (Or.inl rfl)⟩,
        bridge_defined (Or.inr (Or.inr rfl)) _ _, List.length_replicate⟩
    · exact ⟨bridge_ready (Or.inr (Or.inl rfl)), rfl, (by decide : (1 : Int) ≠ 2),
        ⟨rfl, bridge_defined (Or.inr (Or.inl rfl)) _ _, (bridge_defined (Or.inr (Or.inl rfl)) _ _).2, _, hf' 1 (Or.inr rfl)⟩,
        bridge_defined (Or.inr (Or.inr rfl)) _ _, List.length_replicate⟩
  intro x hx
  simp only [bridgeProg, List.mem_cons, List.not_mem_nil, or_false] at hx
  rcases hx with rfl | rfl | rfl | rfl
  · exact key _ _ _ (Or.inl rfl) (by decide)
  · exact key _ _ _ (Or.inl rfl) (by decide)
  · exact key _ _ _ (Or.inr rfl) (by decide)
  · exact key _ _ _ (Or.inr rfl) (by decide)

theorem bridge_webOk : WebOk bridgeSrc (bridgeSetup bridgeTarget) bridgeWeb where
  a := fun i => by
    have : ∀ i, (bridgeSrc i).cfg = demoSetup.cfg ∧ (bridgeSrc i).thread = demoSetup.thread := by
      intro i
      match i with
      | 0 => exact ⟨rfl, rfl⟩
      | i + 1 => exact ⟨rfl, rfl⟩
    rw [(this i).1, (this i).2]
    exact live_start rfl _
  b := live_start rfl _
  cache := cacheAfter_ok _ []

/-- The hypotheses of the theorems hold.  The warning of the first source and the one of the second are forwarded; the information is kept by the
virtual device of the first source, the trace, which no file takes, is not admitted by the target. -/
theorem C121_case_two : Ready (bridgeSetup bridgeTarget) ∧ (∀ x ∈ bridgeProg, SoundItem bridgeSrc (bridgeSetup bridgeTarget) x) ∧
    WebOk bridgeSrc (bridgeSetup bridgeTarget) bridgeWeb ∧
    (bridge bridgeSrc (bridgeSetup bridgeTarget) bridgeProg bridgeWeb).map
      (fun w => ((w.a 0).out.fs "a.log".toList, (w.a 1).out.fs "b.log".toList, w.b.out.fs "c.log".toList)) =
    some (some ["[20261116 11:33:20.417][ERROR][a.cpp:17](f) one\n".toList, "[20261116 11:33:20.417][INFO ][a.cpp:17](f) two\n".toList],
      some ["[20261116 11:33:20.417][ERROR][a.cpp:17](f) three\n".toList],
      some ["[20261116 11:33:20.417][ERROR][a.cpp:17](f) one\n".toList, "[20261116 11:33:20.417][ERROR][a.cpp:17](f) three\n".toList]) :=
  ⟨bridge_ready (Or.inr (Or.inr rfl)), bridge_sound, bridge_webOk, by kernel_rfl⟩

end FNLog
