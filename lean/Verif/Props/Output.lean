import Verif.Props.Statement

/-! # C67 to C70: screen, UDP output, UDP input, change of category -/

namespace FNLog
open Spec

/-! ## C67 -/

/-- **C67**: a sequence of log statements shows every admitted line once for every screen device that takes it, in the
order of the statements and (for one statement) of the devices, in the colour of its priority, up to a NUL in its text. -/
theorem C67_screen {S : Setup} (hS : Ready S) {prog : List (Call × List StreamOp)} {s : Sys}
    (hp : ∀ x ∈ prog, Sound S x.1 x.2) (hl : Live S.cfg S.thread s.ring) {dates : List Int}
    (hc : s.cache = cacheAfter S.env.zone dates) :
    ∃ recs s', Logged S prog recs ∧ statements S prog s = some s' ∧
      s'.out.screen = s.out.screen ++ screenLines S.channel.devices recs := by
  obtain ⟨recs, s', h1, h2, _, h4⟩ := statements_emit hS hp hl (by rw [hc]; exact cacheAfter_ok _ _)
  exact ⟨recs, s', h1, h2, h4.screen⟩

/-- **C67**: a line without a NUL is shown completely. -/
theorem C67_complete_partial {line : List Char} (h : '\x00' ∉ line) (p : Int) :
    shown p line = if p < 2 then line else colourOf p ++ line ++ "\x1b[0m".toList := by
  have e : line.takeWhile (· ≠ '\x00') = line := by
    clear p
    induction line with
    | nil => rfl
    | cons c l ih =>
      simp only [List.mem_cons, not_or] at h
      rw [List.takeWhile_cons, if_pos (by simpa using Ne.symm h.1), ih h.2]
  unfold shown
  rw [e]

def demoScreen : Setup :=
  { demoSetup with
    lg := ⟨.running, some [{ demoChannel with devices := [{ id := 0, outType := .screen, cfg := { able := 1 } }] }]⟩
    channel := { demoChannel with devices := [{ id := 0, outType := .screen, cfg := { able := 1 } }] } }

/-- **C67** fails for a text with a NUL: its end, with the line end, is not shown, and the next line is glued to it. -/
theorem C67_nul_counterexample :
    (statements demoScreen [({ demoCall 1 with mask := 0 }, [.put (.str "a\x00b".toList)]),
        ({ demoCall 1 with mask := 0 }, [.put (.str "c".toList)])] demoSys).map (fun s => s.out.screen) =
      some ["a".toList, "c\n".toList] := by
  kernel_rfl

theorem demoScreen_ready : Ready demoScreen where
  lib := (demoEnv_ok 500).1
  zone := (demoEnv_ok 500).2.1
  slots := by decide
  nl := rfl
  id := by decide
  channel := ⟨_, rfl, rfl⟩
  hook := fun h => absurd h (by decide)
  named := by
    intro d hd hf
    simp only [demoScreen, List.mem_cons, List.not_mem_nil, or_false] at hd
    subst hd
    exact absurd hf (by decide)

/-- The hypotheses of `C67_screen`, with what is shown. -/
example : Ready demoScreen ∧ Live demoScreen.cfg demoScreen.thread demoSys.ring ∧
    Sound demoScreen (demoCall 4) [.put (.str "x".toList)] := by
  have hd : ∀ c i : Int, ∀ d ∈ demoScreen.channel.devices, DevDefined d c i := by
    intro c i d hd
    simp only [demoScreen, List.mem_cons, List.not_mem_nil, or_false] at hd
    subst hd
    exact ⟨by decide, by decide, by decide, by decide, Or.inl (by decide), Or.inl (by decide)⟩
  refine ⟨demoScreen_ready, live_start rfl _, rfl, ⟨?_, hd _ _⟩, hd _ _, _, demo_fits 4 (by decide) _ ?_⟩
  · exact ⟨by decide, by decide, by decide, by decide, Or.inl (by decide), Or.inl (by decide)⟩
  · intro v hv
    simp only [written, List.mem_cons, List.not_mem_nil, or_false] at hv
    subst hv
    simp [Val.All, Val.Fine]

example : (statements demoScreen [({ demoCall 4 with mask := 2 }, [.put (.str "x".toList)])] demoSys).map
    (fun s => s.out.screen) = some ["\x1b[31m[ERROR] x\n\x1b[0m".toList] := by
  kernel_rfl

/-! ## C68 -/

/-- **C68**: every line that a UDP device takes is either dropped or handed to `sendto`; the statistics count the dropped
ones and those that `sendto` refused as lost, and those handed to `sendto` (refused or not) as written. -/
theorem C68_fate_partial {S : Setup} (hS : Ready S) {prog : List (Call × List StreamOp)} {s : Sys}
    (hp : ∀ x ∈ prog, Sound S x.1 x.2) (hl : Live S.cfg S.thread s.ring) {dates : List Int}
    (hc : s.cache = cacheAfter S.env.zone dates) {k : Nat} {d : Device} (hk : S.channel.devices[k]? = some d)
    (hd : d.outType = .udp) (hv : S.hook = false ∨ S.channel.virtualDeviceId ≠ k) :
    ∃ recs s' lost sent, Logged S prog recs ∧ statements S prog s = some s' ∧
      UdpFate S.os k d s.ring.out.length recs lost sent ∧
      (s'.out.dev k).logs DEVICE_LOG_TOTAL_LOSE_LINE = (s.out.dev k).logs DEVICE_LOG_TOTAL_LOSE_LINE + lost +
        (sent.filter fun x => !x.2).length ∧
      (s'.out.dev k).logs DEVICE_LOG_TOTAL_WRITE_LINE = (s.out.dev k).logs DEVICE_LOG_TOTAL_WRITE_LINE + sent.length := by
  obtain ⟨recs, s', h1, h2, _, h4⟩ := statements_emit hS hp hl (by rw [hc]; exact cacheAfter_ok _ _)
  obtain ⟨lost, sent, h5, h6, h7⟩ := h4.udp k d hk hd hv
  exact ⟨recs, s', lost, sent, h1, h2, h5, h6, h7⟩

/-- **C68**: the datagrams sent are complete lines, each to the address of its device, in order; nothing else is sent. -/
theorem C68_datagrams {S : Setup} (hS : Ready S) {prog : List (Call × List StreamOp)} {s : Sys}
    (hp : ∀ x ∈ prog, Sound S x.1 x.2) (hl : Live S.cfg S.thread s.ring) {dates : List Int}
    (hc : s.cache = cacheAfter S.env.zone dates) :
    ∃ recs s' x, Logged S prog recs ∧ statements S prog s = some s' ∧ s'.out.net = s.out.net ++ x ∧
      x.Sublist (datagrams S.channel.devices recs) ∧
      ((∀ (j : Nat) (d : Device), S.channel.devices[j]? = some d → d.outType = .udp → (s.out.dev j).sock = true) →
        x = datagrams S.channel.devices recs) := by
  obtain ⟨recs, s', h1, h2, _, h4⟩ := statements_emit hS hp hl (by rw [hc]; exact cacheAfter_ok _ _)
  obtain ⟨x, h5, h6, h7⟩ := h4.net
  exact ⟨recs, s', x, h1, h2, h5, h6, h7⟩

/-- Without a socket the device asks for one at most every three seconds, and the line is sent if it gets one. -/
theorem C68_open (k : Nat) (d : Device) (os : Os) (log : DevLog) (o : OutSt) (hp : 0 ≤ log.priority ∧ log.priority ≤ 6)
    (hs : (o.dev k).sock = false) :
    ∃ o', udpDevice k d os log o = some o' ∧
      (o'.net = o.net ++ [datagram d log.text] ↔ (o.dev k).openTs + 3 ≤ os.now ∧ os.socket = true) ∧
      ((o'.dev k).openTs = if (o.dev k).openTs + 3 ≤ os.now then os.now else (o.dev k).openTs) := by
  have hne : ∀ x : Datagram, ¬ o.net = o.net ++ [x] := by
    intro x h
    have := congrArg List.length h
    simp at this
  obtain ⟨u, hu⟩ : ∃ u, u = openSock os (o.dev k) := ⟨_, rfl⟩
  have hsock : u.sock = true ↔ (o.dev k).openTs + 3 ≤ os.now ∧ os.socket = true := by
    rw [hu]
    unfold openSock
    by_cases h3 : os.now ≤ (o.dev k).openTs + 2
    · rw [if_pos h3, hs]
      exact ⟨fun h => absurd h (by decide), fun h => absurd h.1 (by omega)⟩
    · rw [if_neg h3]
      exact ⟨fun h => ⟨by omega, h⟩, fun h => h.2⟩
  have hts : u.openTs = if (o.dev k).openTs + 3 ≤ os.now then os.now else (o.dev k).openTs := by
    rw [hu]
    unfold openSock
    by_cases h3 : os.now ≤ (o.dev k).openTs + 2
    · rw [if_pos h3, if_neg (by omega)]
    · rw [if_neg h3, if_pos (by omega)]
  unfold udpDevice
  simp only [hs, Bool.false_eq_true, if_false]
  rw [← hu]
  cases e : u.sock with
  | false =>
    rw [if_pos rfl]
    refine ⟨_, rfl, ⟨fun h => absurd h (hne _), fun h => ?_⟩, ?_⟩
    · rw [hsock.mpr h] at e; exact absurd e (by decide)
    · rw [setDev_self]; exact hts
  | true =>
    rw [if_neg (by decide)]
    obtain ⟨g, hg⟩ := accountDevice_total (f := if os.sent ≤ 0 then loseLine u.logs else u.logs)
      (p := log.priority) (len := log.text.length) ⟨hp.1, by omega⟩
    rw [hg]
    refine ⟨_, rfl, ⟨fun _ => hsock.mp e, fun _ => rfl⟩, ?_⟩
    show ((o.setDev k _).dev k).openTs = _
    rw [setDev_self]
    exact hts

/-- **C68** fails: a line that `sendto` refused is counted as lost and as written. -/
theorem C68_failed_counterexample :
    (udpDevice 0 { outType := .udp } { sent := -1 } ⟨0, 2, ['x'], ['x']⟩
        ⟨fun _ => none, fun _ => { sock := true }, [], []⟩).map
      (fun o => ((o.dev 0).logs DEVICE_LOG_TOTAL_LOSE_LINE, (o.dev 0).logs DEVICE_LOG_TOTAL_WRITE_LINE)) =
      some (1, 1) := by
  decide +kernel

/-! ## C69 -/

/-- The buffer for received datagrams has its size and ends with a NUL (as at the beginning, when it is all NUL). -/
def UdpBufOk (N : Nat) (b : UdpBuf) : Prop := b.content.length = N ∧ b.content[N - 1]? = some '\x00'

theorem endUdp_short {N : Nat} {c : List Char} {n : Nat} (h : n < N) : endUdp N c n = some ⟨c, n⟩ := by
  unfold endUdp
  rw [if_neg (by omega)]

theorem readUdp_ok {N : Nat} (hN : 2 ≤ N) {b : UdpBuf} (hb : UdpBufOk N b) (gram : List Char) :
    ∃ b', readUdp N gram b = some b' ∧ UdpBufOk N b' ∧ b'.len = min N gram.length ∧
      (gram.length < N → b'.content.take b'.len = gram) ∧
      (N ≤ gram.length → b'.content.take b'.len = gram.take (N - 2) ++ ['\n', '\x00']) := by
  obtain ⟨hlen, hlast⟩ := hb
  have w1 : 0 + (['\x00'] : List Char).length ≤ b.content.length := by
    simp only [List.length_cons, List.length_nil]; omega
  obtain ⟨c1, hc1⟩ : ∃ c1, c1 = put b.content 0 ['\x00'] := ⟨_, rfl⟩
  have l1 : c1.length = N := by rw [hc1, put_length w1, hlen]
  have n1 : c1[N - 1]? = some '\x00' := by
    rw [hc1]
    unfold put
    rw [List.take_zero, List.nil_append, List.getElem?_append_right (by simp only [List.length_cons, List.length_nil]; omega),
      List.getElem?_drop]
    simp only [List.length_cons, List.length_nil]
    rw [show 0 + (0 + 1) + (N - 1 - (0 + 1)) = N - 1 by omega]
    exact hlast
  have w2 : 0 + (gram.take N).length ≤ c1.length := by rw [l1, List.length_take]; omega
  obtain ⟨c2, hc2⟩ : ∃ c2, c2 = put c1 0 (gram.take N) := ⟨_, rfl⟩
  have l2 : c2.length = N := by rw [hc2, put_length w2, l1]
  have e2 : c2 = gram.take N ++ c1.drop (gram.take N).length := by
    rw [hc2]; unfold put; rw [List.take_zero, List.nil_append, Nat.zero_add]
  have hread : readUdp N gram b = endUdp N c2 (gram.take N).length := by
    unfold readUdp
    rw [writeAt_put w1, ← hc1]
    simp only [Option.bind_eq_bind, Option.bind_some]
    rw [writeAt_put w2, ← hc2]
    rfl
  rw [hread]
  by_cases hs : gram.length < N
  · have hg : gram.take N = gram := List.take_of_length_le (by omega)
    rw [hg] at e2 ⊢
    rw [endUdp_short hs]
    refine ⟨_, rfl, ⟨l2, ?_⟩, by show gram.length = _; omega, fun _ => ?_, fun h => absurd h (by omega)⟩
    · show c2[N - 1]? = _
      rw [e2, List.getElem?_append_right (by omega), List.getElem?_drop, show gram.length + (N - 1 - gram.length) = N - 1 by omega]
      exact n1
    · show c2.take gram.length = gram
      rw [e2, List.take_append_of_le_length (Nat.le_refl _), List.take_length]
  · have hg : (gram.take N).length = N := by rw [List.length_take]; omega
    rw [hg]
    unfold endUdp
    rw [if_pos rfl]
    have w3 : N - 2 + (['\n'] : List Char).length ≤ c2.length := by
      simp only [List.length_cons, List.length_nil]; omega
    obtain ⟨c3, hc3⟩ : ∃ c3, c3 = put c2 (N - 2) ['\n'] := ⟨_, rfl⟩
    have l3 : c3.length = N := by rw [hc3, put_length w3, l2]
    have w4 : N - 1 + (['\x00'] : List Char).length ≤ c3.length := by
      simp only [List.length_cons, List.length_nil]; omega
    obtain ⟨c4, hc4⟩ : ∃ c4, c4 = put c3 (N - 1) ['\x00'] := ⟨_, rfl⟩
    have l4 : c4.length = N := by rw [hc4, put_length w4, l3]
    rw [writeAt_put w3, ← hc3]
    simp only [Option.bind_eq_bind, Option.bind_some]
    rw [writeAt_put w4, ← hc4]
    simp only [Option.bind_some]
    have h4 : c4 = c2.take (N - 2) ++ ['\n', '\x00'] := by
      have d3 : c3.take (N - 1) = c2.take (N - 2) ++ ['\n'] := by
        rw [hc3]
        unfold put
        rw [List.take_append_of_le_length (by
          simp only [List.length_append, List.length_take, List.length_cons, List.length_nil]; omega),
          List.take_of_length_le (by
          simp only [List.length_append, List.length_take, List.length_cons, List.length_nil]; omega)]
      rw [hc4]
      unfold put
      rw [d3, List.drop_of_length_le (by simp only [List.length_cons, List.length_nil]; omega)]
      simp
    have e2' : c2.take (N - 2) = gram.take (N - 2) := by
      rw [e2, List.take_append_of_le_length (by omega), List.take_take, Nat.min_eq_left (by omega)]
    refine ⟨_, rfl, ⟨l4, ?_⟩, by show N = _; omega, fun h => absurd h hs, fun _ => ?_⟩
    · show c4[N - 1]? = _
      rw [h4, List.getElem?_append_right (by rw [List.length_take]; omega)]
      rw [show N - 1 - (c2.take (N - 2)).length = 1 by rw [List.length_take]; omega]
      rfl
    · show c4.take N = _
      rw [List.take_of_length_le (by omega), h4, e2']

/-- The records of received datagrams: the data, cut and ended with `\n` and NUL if they fill the buffer. -/
def received (N : Nat) (gram : List Char) : List Char :=
  if gram.length < N then gram else gram.take (N - 2) ++ ['\n', '\x00']

theorem handleUdp_ok {E : FileEnv} {ch : Int} {N k : Nat} {d : Device} {ts : Int} {os : Os} {b : UdpBuf} {o : OutSt}
    (hb : UdpBufOk N b)
    (hn : d.outType = .file → ∃ p, fullPath E.proc (E.tm ts) E.fuel d ch = some p) :
    ∃ cstr o', handleUdp E ch k d ts os b o = some o' ∧
      enterProcDevice E ch k d os ⟨ts, PRIORITY_INFO, b.content.take b.len, cstr⟩ o = some o' := by
  have hm : '\x00' ∈ b.content := List.mem_of_getElem? hb.2
  obtain ⟨o', ho'⟩ := enter_total (E := E) (ch := ch) (k := k) (d := d) (os := os) (o := o)
    (log := ⟨ts, PRIORITY_INFO, b.content.take b.len, b.content.takeWhile (· ≠ '\x00')⟩) ⟨show (0 : Int) ≤ 2 by decide, show (2 : Int) ≤ 6 by decide⟩ hn
  refine ⟨_, o', ?_, ho'⟩
  unfold handleUdp cString
  rw [if_pos hm]
  exact ho'

/-- **C69**: whatever datagrams arrive, the output is defined (nothing is read or written outside of the buffer), and the
buffer stays terminated. -/
theorem C69_defined {E : FileEnv} {ch : Int} {N k : Nat} {d : Device} (hN : 2 ≤ N)
    (hn : d.outType = .file → ∀ ts, ∃ p, fullPath E.proc (E.tm ts) E.fuel d ch = some p) :
    ∀ (grams : List (List Char × Int × Os)) (b : UdpBuf) (o : OutSt), UdpBufOk N b →
    ∃ b' o', udpInput E ch N k d grams (b, o) = some (b', o') ∧ UdpBufOk N b' := by
  intro grams
  induction grams with
  | nil => intro b o hb; exact ⟨b, o, rfl, hb⟩
  | cons g grams ih =>
    obtain ⟨gram, ts, os⟩ := g
    intro b o hb
    obtain ⟨b1, h1, hb1, _⟩ := readUdp_ok hN hb gram
    unfold udpInput
    rw [h1]
    simp only [Option.bind_eq_bind, Option.bind_some]
    by_cases he : b1.len = 0
    · rw [if_pos he]
      exact ⟨_, _, rfl, hb1⟩
    · rw [if_neg he]
      obtain ⟨_, o1, h2, _⟩ := handleUdp_ok (E := E) (ch := ch) (k := k) (d := d) (ts := ts) (os := os) (o := o) hb1
        (fun hf => hn hf ts)
      rw [h2]
      exact ih b1 o1 hb1

/-- **C69**: a file device with UDP input writes the datagrams that arrive (not longer than the buffer allows) byte by
byte, in the order of their arrival: it does what it does with log lines of these texts and priority INFO. -/
theorem C69_file_partial {E : FileEnv} {ch : Int} {N k : Nat} {d : Device} (hN : 2 ≤ N) (hd : d.outType = .file)
    (hn : ∀ ts, ∃ p, fullPath E.proc (E.tm ts) E.fuel d ch = some p) :
    ∀ (grams : List (List Char × Int × Os)) (b : UdpBuf) (o : OutSt), UdpBufOk N b → (∀ g ∈ grams, g.1 ≠ []) →
    ∃ b' o' taken, udpInput E ch N k d grams (b, o) = some (b', o') ∧
      Runs E ch d (view o k) (grams.map fun g => ⟨g.2.1, 2, received N g.1, g.2.2.opens, g.2.2.short⟩) taken (view o' k) := by
  intro grams
  induction grams with
  | nil => intro b o hb _; exact ⟨b, o, _, rfl, .nil _⟩
  | cons g grams ih =>
    obtain ⟨gram, ts, os⟩ := g
    intro b o hb hg
    obtain ⟨b1, h1, hb1, hl, hs1, hs2⟩ := readUdp_ok hN hb gram
    have hne : gram ≠ [] := hg (gram, ts, os) (by simp)
    have hpos : 0 < gram.length := List.length_pos_iff.mpr hne
    unfold udpInput
    rw [h1]
    simp only [Option.bind_eq_bind, Option.bind_some]
    rw [if_neg (by omega)]
    obtain ⟨cstr, o1, h2, h3⟩ := handleUdp_ok (E := E) (ch := ch) (k := k) (d := d) (ts := ts) (os := os) (o := o) hb1
      (fun _ => hn ts)
    rw [h2]
    simp only [Option.bind_some]
    obtain ⟨b', o', tk, i1, i2⟩ := ih b1 o1 hb1 fun g hgm => hg g (by simp [hgm])
    have hf := enter_file hd h3
    have htext : b1.content.take b1.len = received N gram := by
      unfold received
      by_cases h : gram.length < N
      · rw [if_pos h, hs1 h]
      · rw [if_neg h, hs2 (by omega)]
    simp only [htext] at hf
    obtain ⟨tk', hr⟩ := taken_or E ch d
      (log := ⟨ts, 2, received N gram, os.opens, os.short⟩) hf i2
    exact ⟨b', o', tk', i1, hr⟩

/-- **C69** fails on the screen: a shorter datagram is followed by the rest of the longer one before it. -/
theorem C69_stale_counterexample :
    (udpInput ⟨⟨[], 1⟩, fun _ => ⟨126, 10, 16, 11, 33, 20⟩, id, id, 50⟩ 0 16 0 { outType := .screen }
      [("hello world\n".toList, 0, {}), ("hi\n".toList, 0, {})]
      (⟨List.replicate 16 '\x00', 0⟩, ⟨fun _ => none, fun _ => {}, [], []⟩)).map (fun s => s.2.screen) =
      some ["\x1b[34m\x1b[1mhello world\n\x1b[0m".toList, "\x1b[34m\x1b[1mhi\nlo world\n\x1b[0m".toList] := by
  decide +kernel

/-- **C69** fails for a datagram that fills the buffer: the file gets a NUL behind the line end. -/
theorem C69_full_counterexample :
    (udpInput ⟨⟨[], 1⟩, fun _ => ⟨126, 10, 16, 11, 33, 20⟩, id, id, 50⟩ 0 8 0 { outType := .file, file := ['a'] }
      [("12345678".toList, 10, {})]
      (⟨List.replicate 8 '\x00', 0⟩, ⟨fun _ => none, fun _ => {}, [], []⟩)).map (fun s => s.2.fs "a.log".toList) =
      some (some ["123456\n\x00".toList]) := by
  kernel_rfl

/-- The hypotheses of `C69_file_partial`, with the result. -/
example : UdpBufOk 16 ⟨List.replicate 16 '\x00', 0⟩ ∧
    (udpInput ⟨⟨[], 1⟩, fun _ => ⟨126, 10, 16, 11, 33, 20⟩, id, id, 50⟩ 0 16 0 { outType := .file, file := ['a'] }
      [("hello world\n".toList, 10, {}), ("hi\n".toList, 11, {})]
      (⟨List.replicate 16 '\x00', 0⟩, ⟨fun _ => none, fun _ => {}, [], []⟩)).map (fun s => s.2.fs "a.log".toList) =
      some (some ["hello world\n".toList, "hi\n".toList]) :=
  ⟨⟨List.length_replicate, by decide⟩, by kernel_rfl⟩

/-! ## C70 -/

/-- A device for the category 0 and one for the category 1. -/
def demoByCategory : Setup :=
  let devices := [{ id := 0, outType := .screen, cfg := { able := 1, category := 0, categoryExtend := 1 } },
    { id := 1, outType := .empty, cfg := { able := 1, category := 1, categoryExtend := 1 } }]
  { demoSetup with
    lg := ⟨.running, some [{ demoChannel with devices := devices }]⟩
    channel := { demoChannel with devices := devices } }

/-- **C70**: an admitted record goes to the devices that accept the category last set, whatever category it was admitted
with. -/
theorem C70_last_category_partial {S : Setup} {prog : List (Call × List StreamOp)} {recs : List (Head × List Char)}
    (h : Logged S prog recs) :
    ∃ admitted : List (Call × List StreamOp), admitted.Sublist prog ∧
      (∀ x ∈ admitted, Admitted S.lg x.1.channelId x.1.priority x.1.category x.1.identify) ∧
      recs.map (fun r => r.1.category) = admitted.map (fun x => lastCategory x.1.category x.2) := by
  induction h with
  | nil => exact ⟨[], List.Sublist.refl _, by simp, rfl⟩
  | refused _ _ ih =>
    obtain ⟨l, h1, h2, h3⟩ := ih
    exact ⟨l, h1.cons _, h2, h3⟩
  | @admitted a ops file t rest recs ha _ _ _ ih =>
    obtain ⟨l, h1, h2, h3⟩ := ih
    refine ⟨(a, ops) :: l, h1.cons_cons _, ?_, ?_⟩
    · intro x hx
      rcases List.mem_cons.mp hx with rfl | hx
      · exact ha
      · exact h2 x hx
    · simp only [List.map_cons, h3]
      rfl

/-- **C70** fails: a statement with category 2, that no device takes, is refused although its category is then set to 0,
which the screen device takes. -/
theorem C70_refused_counterexample :
    (statements demoByCategory [({ demoCall 1 with mask := 0, category := 2 }, [.setCategory 0, .put (.str "x".toList)]),
        ({ demoCall 1 with mask := 0, category := 1 }, [.setCategory 0, .put (.str "y".toList)]),
        ({ demoCall 1 with mask := 0, category := 0 }, [.setCategory 5, .put (.str "z".toList)])] demoSys).map
      (fun s => (s.out.screen, s.ring.out.length)) = some (["y\n".toList], 2) := by
  kernel_rfl

end FNLog
