import Verif.Proof.UdpInMore
import Verif.Proof.KernelRfl

/-!
# C120: what the UDP input of a device receives

`Single` says that never two threads are inside: so it is on an async channel, and on a sync channel as long as log statements do not overlap.
-/

namespace FNLog
open Spec UdpIn

/-- When nobody is inside, the datagrams the kernel had accepted have been output in order, each once, or are still in the socket, or were in
it when it was closed. -/
theorem C120_received_partial {c : Cfg} (hN : 2 ≤ c.N) (able : Bool) (addr : Addr) (ts now : Int) (es : List UdpIn.Ev)
    (hs : Single c (UdpIn.begin c able addr ts now) es) :
    let s := UdpIn.run c (UdpIn.begin c able addr ts now) es
    (∀ t, s.pc t = .idle) → Received c.N s.kept (waiting s) s.gone s.out := by
  intro s hi
  have h : UdpIn.Inv c s := (UdpIn.Inv.begin c able addr ts now).run hN hs
  exact ⟨s.taken, h.idle hi, h.sub, h.perm⟩

/-- While the device is enabled none is dropped, also when `socket` and `bind` fail. -/
theorem C120_none_dropped_partial {c : Cfg} (hN : 2 ≤ c.N) (addr : Addr) (ts now : Int) (es : List UdpIn.Ev)
    (hs : Single c (UdpIn.begin c true addr ts now) es) (he : Enabled es) :
    let s := UdpIn.run c (UdpIn.begin c true addr ts now) es
    (∀ t, s.pc t = .idle) → ∃ taken, s.kept = taken ++ waiting s ∧ s.out = gramTexts c.N taken := by
  intro s hi
  have h : UdpIn.Inv c s := (UdpIn.Inv.begin c true addr ts now).run hN hs
  have hk : Keeps s := Keeps.run hN es ⟨rfl, fun _ => by simp [UdpIn.begin], rfl⟩ (UdpIn.Inv.begin c true addr ts now) hs he
  refine ⟨s.taken, ?_, h.idle hi⟩
  have hp := h.perm
  rw [hk.gone, List.append_nil] at hp
  exact (h.sub.eq_of_length hp.length_eq.symm).symm

/-- At every moment at most one socket is open, the one in the handle. -/
theorem C120_one_socket_partial {c : Cfg} (hN : 2 ≤ c.N) (able : Bool) (addr : Addr) (ts now : Int) (es : List UdpIn.Ev)
    (hs : Single c (UdpIn.begin c able addr ts now) es) (fd : Nat) :
    let s := UdpIn.run c (UdpIn.begin c able addr ts now) es
    (s.socks fd).live = true ↔ s.handler = some fd := by
  have h := (UdpIn.Inv.begin c able addr ts now).run hN hs
  exact ⟨h.live fd, h.isLive fd⟩

/-- A round of a device that is disabled closes the socket and receives nothing. -/
theorem C120_closed_partial {c : Cfg} (hN : 2 ≤ c.N) (able : Bool) (addr : Addr) (ts now : Int) (es : List UdpIn.Ev)
    (hs : Single c (UdpIn.begin c able addr ts now) es) (t : Nat) :
    let s := UdpIn.run c (UdpIn.begin c able addr ts now) es
    (∀ u, s.pc u = .idle) → s.able = false →
    let s' := UdpIn.run c s (.enter t :: steps t 2)
    (∀ u, s'.pc u = .idle) ∧ (∀ fd, (s'.socks fd).live = false) ∧ s'.out = s.out ∧ s'.kept = s.kept := by
  intro s hi ha s'
  have e1 : stepT c (s.go t .able) t true = (s.go t .able).go t .shut := by
    unfold stepT; rw [go_pc, if_pos rfl]; exact if_neg (by show ¬ s.able = true; rw [ha]; simp)
  have e2 : stepT c ((s.go t .able).go t .shut) t true = (((s.go t .able).go t .shut).close).go t .idle := by
    unfold stepT; rw [go_pc, if_pos rfl]
  have e : s' = (((s.go t .able).go t .shut).close).go t .idle := by
    show UdpIn.run c s (.enter t :: steps t 2) = _
    rw [run_cons, step_enter c (hi t), run_steps_succ, e1, run_steps_succ, e2]; rfl
  have hI : UdpIn.Inv c s' := ((UdpIn.Inv.begin c able addr ts now).run hN hs).run hN
    (single_only _ _ (only_round t 2) (fun u _ => hi u))
  have hn : s'.handler = none := by rw [e]; exact close_handler _
  refine ⟨?_, ?_, ?_, ?_⟩
  · intro u
    rw [e, go_pc, close_pc]
    by_cases hu : u = t
    · rw [if_pos hu]
    · simp only [go_pc, if_neg hu]; exact hi u
  · intro fd
    cases hl : (s'.socks fd).live with
    | false => rfl
    | true => have := hI.live fd hl; rw [hn] at this; cases this
  · rw [e]; exact close_out _
  · rw [e]
    show (((s.go t .able).go t .shut).close).kept = _
    unfold St.close; split <;> rfl

/-- A socket of a device whose output does not use it is bound to an address, whatever the threads do, unless one of them is about to bind or
to close it. -/
theorem C120_bound {c : Cfg} (hc : c.both = false) (able : Bool) (addr : Addr) (ts now : Int) (es : List UdpIn.Ev) (fd : Nat) :
    let s := UdpIn.run c (UdpIn.begin c able addr ts now) es
    (∀ t, s.pc t = .idle) → s.handler = some fd → ∃ a, (s.socks fd).bound = some a := by
  intro s hi hh
  have h : Binds s := Binds.run hc es ⟨fun _ => by simp [UdpIn.begin, Sending], fun fd h => by simp [UdpIn.begin] at h⟩
  cases hb : (s.socks fd).bound with
  | some a => exact ⟨a, rfl⟩
  | none =>
    obtain ⟨t, ht⟩ := h.bound fd hh hb
    rw [hi t] at ht
    exact ht.elim

/-- A thread that finds no socket, the last try being three seconds ago, opens one and binds it to the address that is configured. -/
theorem C120_opens {c : Cfg} {s : UdpIn.St} {t : Nat} (ht : s.pc t = .idle) (ha : s.able = true) (hh : s.handler = none) (hn : s.openTs + 3 ≤ s.now) :
    let s' := UdpIn.run c s (.enter t :: steps t 7)
    s'.handler = some s.next ∧ (s'.socks s.next).live = true ∧ (s'.socks s.next).bound = some s.addr ∧ s'.openTs = s.now := by
  have hle : ¬ s.now ≤ s.openTs + 2 := by omega
  intro s'
  have e1 : stepT c (s.go t .able) t true = (s.go t .able).go t (.openQ true) := by
    unfold stepT; rw [go_pc, if_pos rfl]; exact if_pos ha
  obtain ⟨s1, h1⟩ : ∃ s1, s1 = (s.go t .able).go t (.openQ true) := ⟨_, rfl⟩
  have e2 : stepT c s1 t true = s1.go t (.time true) := by
    unfold stepT; rw [h1, go_pc, if_pos rfl]; exact if_pos hh
  have e3 : stepT c (s1.go t (.time true)) t true = (s1.go t (.time true)).go t (.stamp true) := by
    unfold stepT; rw [go_pc, if_pos rfl]; exact if_neg (by rw [h1]; exact hle)
  obtain ⟨s3, h3⟩ : ∃ s3, s3 = (s1.go t (.time true)).go t (.stamp true) := ⟨_, rfl⟩
  have e4 : stepT c s3 t true = { s3 with openTs := s3.now, tries := s3.tries ++ [s3.now] }.go t (.sock true) := by
    unfold stepT; rw [show s3.pc t = .stamp true by rw [h3]; simp]
  obtain ⟨s4, h4⟩ : ∃ s4, s4 = { s3 with openTs := s3.now, tries := s3.tries ++ [s3.now] }.go t (.sock true) := ⟨_, rfl⟩
  have n4 : s4.next = s.next := by rw [h4, h3, h1]; rfl
  have a4 : s4.addr = s.addr := by rw [h4, h3, h1]; rfl
  have o4 : s4.openTs = s.now := by rw [h4, h3, h1]; rfl
  have e5 : stepT c s4 t true = (s4.socket true).go t .bindQ := by
    unfold stepT; rw [show s4.pc t = .sock true by rw [h4]; simp]; rfl
  have e6 : stepT c ((s4.socket true).go t .bindQ) t true = ((s4.socket true).go t .bindQ).go t .bind := by
    unfold stepT; rw [go_pc, if_pos rfl]; exact if_neg (by simp [St.socket, St.go])
  obtain ⟨s6, h6⟩ : ∃ s6, s6 = ((s4.socket true).go t .bindQ).go t .bind := ⟨_, rfl⟩
  have k6 : s6.handler = some s4.next := by rw [h6]; rfl
  have q6 : s6.socks s4.next = { live := true } := by rw [h6]; simp [St.socket, St.go, St.put]
  have b6 : s6.bindFd true = some (s6.put s4.next { s6.socks s4.next with bound := some s6.addr }) := by
    unfold St.bindFd; rw [k6]; simp only; rw [q6]; rfl
  have e7 : stepT c s6 t true = (s6.put s4.next { s6.socks s4.next with bound := some s6.addr }).go t .readQ := by
    unfold stepT; rw [show s6.pc t = .bind by rw [h6]; simp]; simp only; rw [b6]
  have e : s' = (s6.put s4.next { s6.socks s4.next with bound := some s6.addr }).go t .readQ := by
    show UdpIn.run c s (.enter t :: steps t 7) = _
    rw [run_cons, step_enter c ht, run_steps_succ, e1, ← h1, run_steps_succ, e2, run_steps_succ, e3, ← h3, run_steps_succ, e4, ← h4, run_steps_succ,
      e5, run_steps_succ, e6, ← h6, run_steps_succ, e7]; rfl
  rw [e, ← n4]
  refine ⟨k6, by simp [St.go, St.put, q6], ?_, ?_⟩
  · have : s6.addr = s.addr := by rw [h6]; exact a4
    simp [St.go, St.put, this]
  · show s6.openTs = s.now
    rw [h6]; exact o4

/-- Before that it does not: also after the logger has been stopped and started, as the time of the last try is kept (fn_file.h 455). -/
theorem C120_waits {c : Cfg} {s : UdpIn.St} {t : Nat} (ht : s.pc t = .idle) (ha : s.able = true) (hh : s.handler = none) (hn : s.now ≤ s.openTs + 2) :
    let s' := UdpIn.run c s (.enter t :: steps t 5)
    s'.pc t = .idle ∧ s'.handler = none ∧ s'.tries = s.tries ∧ s'.out = s.out := by
  intro s'
  have e1 : stepT c (s.go t .able) t true = (s.go t .able).go t (.openQ true) := by
    unfold stepT; rw [go_pc, if_pos rfl]; exact if_pos ha
  obtain ⟨s1, h1⟩ : ∃ s1, s1 = (s.go t .able).go t (.openQ true) := ⟨_, rfl⟩
  have k1 : s1.handler = none := by rw [h1]; exact hh
  have e2 : stepT c s1 t true = s1.go t (.time true) := by
    unfold stepT; rw [h1, go_pc, if_pos rfl]; exact if_pos hh
  have e3 : stepT c (s1.go t (.time true)) t true = (s1.go t (.time true)).go t .bindQ := by
    unfold stepT; rw [go_pc, if_pos rfl]
    exact (if_pos (by rw [h1]; exact hn)).trans (if_pos rfl)
  have e4 : stepT c ((s1.go t (.time true)).go t .bindQ) t true = ((s1.go t (.time true)).go t .bindQ).go t .readQ := by
    unfold stepT; rw [go_pc, if_pos rfl]; exact if_pos k1
  have e5 : stepT c (((s1.go t (.time true)).go t .bindQ).go t .readQ) t true = (((s1.go t (.time true)).go t .bindQ).go t .readQ).go t .idle := by
    unfold stepT; rw [go_pc, if_pos rfl]; exact if_pos k1
  have e : s' = (((s1.go t (.time true)).go t .bindQ).go t .readQ).go t .idle := by
    show UdpIn.run c s (.enter t :: steps t 5) = _
    rw [run_cons, step_enter c ht, run_steps_succ, e1, ← h1, run_steps_succ, e2, run_steps_succ, e3, run_steps_succ, e4, run_steps_succ, e5]; rfl
  rw [e]
  refine ⟨by simp, k1, ?_, ?_⟩
  · show s1.tries = _
    rw [h1]; rfl
  · show s1.out = _
    rw [h1]; rfl

/-- Tries to open the socket are three seconds apart, also when they fail, as long as the clock does not go back. -/
theorem C120_tries_partial {c : Cfg} (able : Bool) (addr : Addr) (ts now : Int) (es : List UdpIn.Ev)
    (hs : Single c (UdpIn.begin c able addr ts now) es) (hm : Steady now es) :
    SpacedBy 3 (UdpIn.run c (UdpIn.begin c able addr ts now) es).tries :=
  (Tries.run (s := UdpIn.begin c able addr ts now) es ⟨trivial, fun _ h => by simp [UdpIn.begin] at h, fun _ _ h => by simp [UdpIn.begin] at h⟩ hs hm).spaced

/-- A round, when the socket is open and nobody else is inside, outputs the datagrams of the socket to the first empty one, at most 1000. -/
theorem C120_round_partial {c : Cfg} (hN : 2 ≤ c.N) (able : Bool) (addr : Addr) (ts now : Int) (es : List UdpIn.Ev)
    (hs : Single c (UdpIn.begin c able addr ts now) es) (t fd : Nat) :
    let s := UdpIn.run c (UdpIn.begin c able addr ts now) es
    (∀ u, s.pc u = .idle) → s.able = true → s.handler = some fd →
    ∃ k, let s' := UdpIn.run c s (.enter t :: steps t k)
      let m := roundTakes 1000 (s.socks fd).queue
      (∀ u, s'.pc u = .idle) ∧ s'.handler = some fd ∧ s'.able = true ∧ (s'.socks fd).queue = (s.socks fd).queue.drop m ∧
      s'.out = s.out ++ gramTexts c.N ((s.socks fd).queue.take m) := by
  intro s hi ha hh
  obtain ⟨k, hk, ht⟩ := UdpIn.round hN (hi t) ha hh
  have h : UdpIn.Inv c s := (UdpIn.Inv.begin c able addr ts now).run hN hs
  have hidle : ∀ u, (UdpIn.run c s (.enter t :: steps t k)).pc u = .idle := by
    intro u
    by_cases hu : u = t
    · rw [hu]; exact hk
    · rw [ht.pc u hu]; exact hi u
  have h' := h.run hN (single_only (c := c) _ s (only_round t k) (fun u _ => hi u))
  refine ⟨k, hidle, ht.handler, ht.able.trans ha, ht.queue, ?_⟩
  have h1 : s.out = gramTexts c.N s.taken := h.idle hi
  have h2 : _ = gramTexts c.N _ := h'.idle hidle
  rw [h2, ht.taken, h1]
  unfold gramTexts
  rw [List.filter_append, List.map_append]

/-- Hence rounds output all that waits in the socket. -/
theorem C120_all_partial {c : Cfg} (hN : 2 ≤ c.N) (able : Bool) (addr : Addr) (ts now : Int) (es : List UdpIn.Ev)
    (hs : Single c (UdpIn.begin c able addr ts now) es) (t fd : Nat) :
    let s := UdpIn.run c (UdpIn.begin c able addr ts now) es
    (∀ u, s.pc u = .idle) → s.able = true → s.handler = some fd →
    ∃ ks : List Nat, ks.length ≤ (s.socks fd).queue.length ∧
      let s' := UdpIn.run c s (ks.flatMap fun k => .enter t :: steps t k)
      (∀ u, s'.pc u = .idle) ∧ (s'.socks fd).queue = [] ∧ s'.out = s.out ++ gramTexts c.N (s.socks fd).queue := by
  suffices H : ∀ (n : Nat) (es : List UdpIn.Ev), Single c (UdpIn.begin c able addr ts now) es →
      let s := UdpIn.run c (UdpIn.begin c able addr ts now) es
      (∀ u, s.pc u = .idle) → s.able = true → s.handler = some fd → (s.socks fd).queue.length ≤ n →
      ∃ ks : List Nat, ks.length ≤ (s.socks fd).queue.length ∧
        let s' := UdpIn.run c s (ks.flatMap fun k => .enter t :: steps t k)
        (∀ u, s'.pc u = .idle) ∧ (s'.socks fd).queue = [] ∧ s'.out = s.out ++ gramTexts c.N (s.socks fd).queue from
    fun hi ha hh => H _ es hs hi ha hh (Nat.le_refl _)
  intro n
  induction n with
  | zero =>
    intro es _ s hi _ _ hl
    have hq : (s.socks fd).queue = [] := List.length_eq_zero_iff.mp (by omega)
    exact ⟨[], Nat.zero_le _, hi, hq, by rw [hq]; simp [gramTexts, UdpIn.run]⟩
  | succ n ih =>
    intro es hs s hi ha hh hl
    by_cases hq : (s.socks fd).queue = []
    · exact ⟨[], Nat.zero_le _, hi, hq, by rw [hq]; simp [gramTexts, UdpIn.run]⟩
    · have hpos : 1 ≤ roundTakes 1000 (s.socks fd).queue := roundTakes_pos hq
      have hlen : 0 < (s.socks fd).queue.length := List.length_pos_iff.mpr hq
      obtain ⟨k, h1, h2, h3, h4, h5⟩ := C120_round_partial hN able addr ts now es hs t fd hi ha hh
      have hs' : Single c (UdpIn.begin c able addr ts now) (es ++ (.enter t :: steps t k)) :=
        single_append hs (single_only _ _ (only_round t k) (fun u _ => hi u))
      change _ = (s.socks fd).queue.drop (roundTakes 1000 (s.socks fd).queue) at h4
      have hr := run_append c (UdpIn.begin c able addr ts now) es (.enter t :: steps t k)
      have := ih (es ++ (.enter t :: steps t k)) hs'
      rw [hr] at this
      obtain ⟨ks, g1, g2, g3, g4⟩ := this h1 h3 h2 (by rw [h4, List.length_drop]; omega)
      refine ⟨k :: ks, ?_, ?_⟩
      · rw [h4, List.length_drop] at g1
        rw [List.length_cons]; omega
      · rw [List.flatMap_cons, run_append]
        refine ⟨g2, g3, ?_⟩
        rw [g4, h5, h4, List.append_assoc]
        congr 1
        unfold gramTexts
        rw [← List.map_append, ← List.filter_append, List.take_append_drop]

/-- With one thread the hypothesis holds for every schedule. -/
theorem C120_one_thread (c : Cfg) (able : Bool) (addr : Addr) (ts now : Int) (t : Nat) (es : List UdpIn.Ev) (h : Only t es) :
    Single c (UdpIn.begin c able addr ts now) es := single_only es _ h (fun _ _ => rfl)

/-! ## Threads on a sync channel -/

/-- Records of 8 bytes; a socket hears the address it is bound to. -/
def inCfg : Cfg := ⟨8, false, fun a b => a == b⟩

/-- The device is configured for address (1, 9000) and enabled, at second 100. -/
def inBegin : UdpIn.St := UdpIn.begin inCfg true (1, 9000) 0 100

/-- A whole first round, which opens the socket. -/
def firstRound : List UdpIn.Ev := .enter 0 :: steps 0 13

/-- Two datagrams; both threads receive one before the first of them outputs. -/
def udpOverwrite : List UdpIn.Ev :=
  firstRound ++ [.arrive 0 (1, 9000) ['A'], .arrive 0 (1, 9000) ['B']] ++ (.enter 0 :: steps 0 5) ++ (.enter 1 :: steps 1 5) ++ steps 0 4 ++
    steps 1 4 ++ steps 0 5 ++ steps 1 5

theorem two_idle (s : UdpIn.St) (h0 : s.pc 0 = .idle) (h1 : s.pc 1 = .idle) (h : ∀ t, s.pc (t + 2) = .idle) : ∀ t, s.pc t = .idle
  | 0 => h0
  | 1 => h1
  | t + 2 => h t

/-- The second overwrites the buffer of the first: datagram A is lost and B is output twice. -/
theorem C120_overwritten :
    let s := UdpIn.run inCfg inBegin udpOverwrite
    (∀ t, s.pc t = .idle) ∧ Enabled udpOverwrite ∧ s.kept = [['A'], ['B']] ∧ s.out = [['B'], ['B']] ∧ s.gone = [] ∧
      ¬ Received inCfg.N s.kept (waiting s) s.gone s.out := by
  intro s
  have hk : s.kept = [['A'], ['B']] := by kernel_rfl
  have ho : s.out = [['B'], ['B']] := by kernel_rfl
  have hg : s.gone = [] := by kernel_rfl
  have hw : waiting s = [] := by kernel_rfl
  refine ⟨two_idle s (by kernel_rfl) (by kernel_rfl) (fun t => by kernel_rfl), ?_, hk, ho, hg, ?_⟩
  · simp [Enabled, udpOverwrite, firstRound, steps]
  · rintro ⟨taken, h1, h2, h3⟩
    rw [hk, hw, List.append_nil] at h2
    rw [hk, hw, hg, List.append_nil, List.append_nil] at h3
    have := h2.eq_of_length h3.length_eq.symm
    rw [this, ho] at h1
    revert h1
    decide +kernel

/-- Both find no socket; the first opens and binds one, and a datagram arrives. -/
def udpClosing : List UdpIn.Ev :=
  (.enter 0 :: steps 0 2) ++ (.enter 1 :: steps 1 2) ++ steps 0 5 ++ [.arrive 0 (1, 9000) ['A']] ++ steps 1 4 ++ steps 0 1 ++ steps 1 1

/-- The second then fails to bind the socket, which is bound, and closes it: the datagram is lost and the device is deaf, although enabled and
although every call of `socket` succeeded. -/
theorem C120_closed_by_other :
    let s := UdpIn.run inCfg inBegin udpClosing
    (∀ t, s.pc t = .idle) ∧ Enabled udpClosing ∧ s.kept = [['A']] ∧ s.out = [] ∧ s.gone = [['A']] ∧ s.handler = none ∧ s.now ≤ s.openTs + 2 := by
  refine ⟨two_idle _ (by kernel_rfl) (by kernel_rfl) (fun t => by kernel_rfl), ?_, by kernel_rfl, by kernel_rfl, by kernel_rfl, by kernel_rfl, ?_⟩
  · simp [Enabled, udpClosing, steps]
  · decide +kernel

/-- Both pass the test of the time. -/
def udpLeaking : List UdpIn.Ev := (.enter 0 :: steps 0 3) ++ (.enter 1 :: steps 1 3) ++ steps 0 2 ++ steps 1 2

/-- Both open a socket in the same second; the first socket is never closed, whatever happens later. -/
theorem C120_leaked (es : List UdpIn.Ev) :
    ((UdpIn.run inCfg inBegin (udpLeaking ++ es)).socks 0).live = true ∧ (UdpIn.run inCfg inBegin (udpLeaking ++ es)).handler ≠ some 0 := by
  have h : Leaked (UdpIn.run inCfg inBegin udpLeaking) 0 := ⟨by kernel_rfl, by decide +kernel, by decide +kernel⟩
  have := h.run (c := inCfg) es
  rw [run_append]
  exact ⟨this.live, this.lost⟩

/-- Two tries in one second. -/
theorem C120_tries_twice : (UdpIn.run inCfg inBegin udpLeaking).tries = [100, 100] ∧ ¬ SpacedBy 3 (UdpIn.run inCfg inBegin udpLeaking).tries := by
  have h : (UdpIn.run inCfg inBegin udpLeaking).tries = [100, 100] := by kernel_rfl
  refine ⟨h, ?_⟩
  rw [h]
  simp [SpacedBy]

/-! ## The address, and a device that also sends -/

theorem deaf {c : Cfg} {s : UdpIn.St} {fd : Nat} {b : Option Addr} {a : Addr} (hi : UdpIn.Inv c s) (h : Stays s fd b)
    (hb : ∀ x, b = some x → c.hears x a = false) (g : Nat) : (s.socks g).takes c a = false := by
  unfold Sock.takes
  cases hl : (s.socks g).live with
  | false => rfl
  | true =>
    have := hi.live g hl
    rw [h.handler] at this
    cases this
    rw [h.bound]
    cases b with
    | none => rfl
    | some x => exact hb x rfl

theorem calm_idle {s : UdpIn.St} (h : ∀ t, s.pc t = .idle) : ∀ t, Calm (s.pc t) := fun t => by rw [h t]; trivial

theorem one_idle (s : UdpIn.St) (h0 : s.pc 0 = .idle) (h : ∀ t, s.pc (t + 1) = .idle) : ∀ t, s.pc t = .idle
  | 0 => h0
  | t + 1 => h t

theorem only_first : Only 0 firstRound := only_round 0 13

theorem single_tail {c : Cfg} : ∀ {l m : List UdpIn.Ev} {s : UdpIn.St}, Single c s (l ++ m) → Single c (UdpIn.run c s l) m := by
  intro l
  induction l with
  | nil => intro m s h; exact h
  | cons e l ih => intro m s h; exact ih h.2

/-- When the address of the device is changed while its socket is open, no socket takes a datagram for the new address, however long the device
stays enabled: the socket stays bound to the old one. -/
theorem C120_old_address (b : Addr) (hb : b ≠ (1, 9000)) (es : List UdpIn.Ev) (hs : Single inCfg inBegin (firstRound ++ .addr b :: es))
    (he : Enabled es) :
    let s := UdpIn.run inCfg inBegin (firstRound ++ .addr b :: es)
    s.handler = some 0 ∧ (s.socks 0).bound = some (1, 9000) ∧ ∀ fd, (s.socks fd).takes inCfg b = false := by
  have hfirst : ∀ t, (UdpIn.run inCfg inBegin firstRound).pc t = .idle := one_idle _ (by kernel_rfl) (fun t => by kernel_rfl)
  have h0 : Stays (UdpIn.run inCfg inBegin firstRound) 0 (some (1, 9000)) := ⟨by kernel_rfl, by kernel_rfl, by kernel_rfl, calm_idle hfirst⟩
  intro s
  have h1 : Stays s 0 (some (1, 9000)) := by
    show Stays (UdpIn.run inCfg inBegin (firstRound ++ .addr b :: es)) 0 _
    rw [run_append]
    refine h0.run _ ?_
    intro e h
    rcases List.mem_cons.mp h with rfl | h
    · trivial
    · exact he e h
  have hi : UdpIn.Inv inCfg s := (UdpIn.Inv.begin inCfg true (1, 9000) 0 100).run (by decide) hs
  refine ⟨h1.handler, h1.bound, fun fd => deaf hi h1 ?_ fd⟩
  rintro x ⟨⟩
  show ((1, 9000) == b) = false
  rw [beq_eq_false_iff_ne]
  exact fun h => hb h.symm

/-- The same device, with UDP output as well. -/
def bothCfg : Cfg := { inCfg with both := true }

/-- A record is output before the first round of the input: on a sync channel the first log statement does that. -/
def sendFirst : List UdpIn.Ev := .send 0 :: steps 0 4

/-- The output has opened the socket without binding it; the input never binds it: no datagram for any address is received, however long the
device stays enabled. -/
theorem C120_never_bound (es : List UdpIn.Ev) (hs : Single bothCfg (UdpIn.begin bothCfg true (1, 9000) 0 100) (sendFirst ++ es)) (he : Enabled es) :
    let s := UdpIn.run bothCfg (UdpIn.begin bothCfg true (1, 9000) 0 100) (sendFirst ++ es)
    s.handler = some 0 ∧ ∀ (a : Addr) (fd : Nat), (s.socks fd).takes bothCfg a = false := by
  have hfirst : ∀ t, (UdpIn.run bothCfg (UdpIn.begin bothCfg true (1, 9000) 0 100) sendFirst).pc t = .idle :=
    one_idle _ (by kernel_rfl) (fun t => by kernel_rfl)
  have h0 : Stays (UdpIn.run bothCfg (UdpIn.begin bothCfg true (1, 9000) 0 100) sendFirst) 0 none :=
    ⟨by kernel_rfl, by kernel_rfl, by kernel_rfl, calm_idle hfirst⟩
  intro s
  have h1 : Stays s 0 none := by
    show Stays (UdpIn.run _ _ (sendFirst ++ es)) 0 _
    rw [run_append]
    exact h0.run _ he
  have hi : UdpIn.Inv bothCfg s := (UdpIn.Inv.begin bothCfg true (1, 9000) 0 100).run (by decide) hs
  exact ⟨h1.handler, fun a fd => deaf hi h1 (by rintro x ⟨⟩) fd⟩

/-! ## Cases -/

/-- One thread: the socket is opened, three datagrams arrive, the second is too long, and a round outputs them. -/
def oneThread : List UdpIn.Ev :=
  firstRound ++ [.arrive 0 (1, 9000) ['A'], .arrive 0 (1, 9000) "123456789".toList, .arrive 0 (2, 9000) ['X'], .arrive 0 (1, 9000) ['C']] ++
    (.enter 0 :: steps 0 26)

theorem C120_case_one : Only 0 oneThread ∧ Enabled oneThread ∧ Steady 100 oneThread ∧
    (∀ t, (UdpIn.run inCfg inBegin oneThread).pc t = .idle) ∧
    (UdpIn.run inCfg inBegin oneThread).out = [['A'], "123456\n\x00".toList, ['C']] := by
  refine ⟨?_, ?_, ?_, one_idle _ (by kernel_rfl) (fun t => by kernel_rfl), by kernel_rfl⟩
  · simp [Only, oneThread, firstRound, steps]
  · simp [Enabled, oneThread, firstRound, steps]
  · simp [Steady, oneThread, firstRound, steps, List.replicate]

/-- Disabling closes the socket with what is in it; enabled again three seconds later the device hears again. -/
def offAndOn : List UdpIn.Ev :=
  firstRound ++ [.arrive 0 (1, 9000) ['A'], .able false] ++ (.enter 0 :: steps 0 2) ++ [.able true, .clock 103] ++ firstRound ++
    [.arrive 1 (1, 9000) ['B']] ++ (.enter 0 :: steps 0 14)

theorem C120_case_off : Only 0 offAndOn ∧ Steady 100 offAndOn ∧
    (UdpIn.run inCfg inBegin offAndOn).kept = [['A'], ['B']] ∧ (UdpIn.run inCfg inBegin offAndOn).gone = [['A']] ∧
    (UdpIn.run inCfg inBegin offAndOn).out = [['B']] ∧ (UdpIn.run inCfg inBegin offAndOn).tries = [100, 103] := by
  refine ⟨?_, ?_, by kernel_rfl, by kernel_rfl, by kernel_rfl, by kernel_rfl⟩
  · simp [Only, offAndOn, firstRound, steps]
  · simp [Steady, offAndOn, firstRound, steps, List.replicate]

end FNLog
