import Verif.Proof.UdpOut
import Verif.Proof.KernelRfl

/-!
# C126: the output of a UDP device by several threads
-/

namespace FNLog
open Spec UdpOut

/-! ## Every line has one end -/

/-- Whatever the order of the accesses of any number of threads, of changes of the address and of StopLogger: when no call is in progress every
call has ended in exactly one way and the statistics say in which; and always the datagrams of each thread are its texts, in their order. -/
theorem C126_lines (ip port now : Int) (es : List UdpOut.Ev) :
    UdpInOrder (UdpOut.run (UdpOut.begin ip port now) es) ∧
    ((∀ t, (UdpOut.run (UdpOut.begin ip port now) es).pc t = .idle) → Accounted (UdpOut.run (UdpOut.begin ip port now) es)) := by
  refine ⟨fun t => ?_, fun hi => ?_⟩
  · exact (List.sublist_append_left _ _).trans (Row.run es (t := t) (s := UdpOut.begin ip port now) (List.Sublist.refl _))
  · have h := fun t x => Sums.run es (Sums.begin ip port now t x)
    generalize UdpOut.run (UdpOut.begin ip port now) es = s at *
    refine ⟨?_, ?_, ?_⟩ <;> refine List.perm_iff_count.2 fun ⟨t, x⟩ => ?_ <;> obtain ⟨h1, h2, h3⟩ := h t x <;>
      rw [hi t] at h1 h2 h3 <;> simp only [cur, toLose, toCount, List.count_nil] at h1 h2 h3 <;>
      simp only [List.count_append] <;> omega

/-! ## Address and socket -/

/-- No change of the address. -/
def UdpOut.SameAddress : UdpOut.Ev → Prop
  | .setIp _ | .setPort _ => False
  | _ => True

/-- What a thread has loaded and stored. -/
def UdpOut.Right (s : UdpOut.St) : UdpOut.PC → Prop
  | .port _ i => i = s.ip
  | .handQ _ i p | .fam _ i p => i = s.ip ∧ p = s.port
  | .sport _ i p => i = s.ip ∧ p = s.port ∧ s.addr.inet = true
  | .sip _ i p => i = s.ip ∧ p = s.port ∧ s.addr.inet = true ∧ s.addr.port = (s.port % 2 ^ 16).toNat
  | .send _ => s.addr = configured s.ip s.port
  | _ => True

/-- The tries to open a socket are more than two seconds apart. -/
def Spec.Spaced (l : List Int) : Prop := l.Pairwise (fun a b => a + 2 < b)

/-- The device owns exactly the socket it knows of, and its tries to open one are apart. -/
structure Spec.UdpSound (s : UdpOut.St) : Prop where
  live : s.live = s.handler.toList
  spaced : Spaced s.tries
  last : ∀ a ∈ s.tries, a ≤ s.openTs

/-- The clock does not go back. -/
def UdpOut.Forward : Int → List UdpOut.Ev → Prop
  | _, [] => True
  | now, .clock n :: es => now ≤ n ∧ UdpOut.Forward n es
  | now, _ :: es => UdpOut.Forward now es

/-- What is true between the statements of a call. -/
def UdpOut.Before (s : UdpOut.St) : UdpOut.PC → Prop
  | .time _ | .sock _ => s.handler = none
  | .stamp _ => s.handler = none ∧ s.openTs + 2 < s.now
  | _ => True

structure UdpOut.Single (c s : UdpOut.St) (t : Nat) : Prop where
  same : s.ip = c.ip ∧ s.port = c.port
  sound : Spec.UdpSound s
  net : ∃ l, s.net = c.net ++ l ∧ ∀ g ∈ l, g.2.1 = configured c.ip c.port
  others : ∀ u, u ≠ t → s.pc u = .idle
  locked : s.lock = none → s.pc t = .idle
  right : UdpOut.Right s (s.pc t)
  before : UdpOut.Before s (s.pc t)

theorem UdpOut.Single.go {c s s' : UdpOut.St} {t : Nat} (h : UdpOut.Single c s t) (p : UdpOut.PC) (hpc : s'.pc = s.pc)
    (hs : s'.ip = s.ip ∧ s'.port = s.port) (hv : Spec.UdpSound s')
    (hn : s'.net = s.net ∨ ∃ g, s'.net = s.net ++ [g] ∧ g.2.1 = configured s.ip s.port)
    (hr : UdpOut.Right s' p) (hb : UdpOut.Before s' p) (hk : s'.lock = none → p = .idle) : UdpOut.Single c (s'.go t p) t := by
  refine ⟨⟨hs.1.trans h.same.1, hs.2.trans h.same.2⟩, ⟨hv.live, hv.spaced, hv.last⟩, ?_, ?_, fun e => by rw [go_self]; exact hk e, ?_, ?_⟩
  · obtain ⟨l, hl, hg⟩ := h.net
    rcases hn with hn | ⟨g, hn, ha⟩
    · exact ⟨l, hn.trans hl, hg⟩
    · refine ⟨l ++ [g], ?_, ?_⟩
      · rw [go_net, hn, hl, List.append_assoc]
      · intro g' hm
        rcases List.mem_append.1 hm with hm | hm
        · exact hg g' hm
        · rw [List.mem_singleton.1 hm, ha, h.same.1, h.same.2]
  · intro u hu
    rw [go_pc, if_neg hu, hpc]; exact h.others u hu
  · rw [go_self]; revert hr; cases p <;> exact id
  · rw [go_self]; revert hb; cases p <;> exact id

theorem UdpOut.Single.stepT {c s : UdpOut.St} {t : Nat} (h : UdpOut.Single c s t) (u : Nat) (ok : Bool) :
    UdpOut.Single c (UdpOut.stepT s u ok) t := by
  by_cases hu : u = t
  · subst hu
    have hr := h.right
    have hb := h.before
    have hv := h.sound
    have hk : s.pc u ≠ .idle → ∀ p : UdpOut.PC, s.lock = none → p = .idle := fun h1 _ h2 => absurd (h.locked h2) h1
    unfold UdpOut.stepT
    cases hp : s.pc u <;> rw [hp] at hr hb hk <;> dsimp only
    case idle => exact h
    case openQ x =>
      split
      · rename_i hh; exact h.go _ rfl ⟨rfl, rfl⟩ hv (.inl rfl) trivial hh (hk (by simp) _)
      · exact h.go _ rfl ⟨rfl, rfl⟩ hv (.inl rfl) trivial trivial (hk (by simp) _)
    case time x =>
      split
      · exact h.go _ rfl ⟨rfl, rfl⟩ hv (.inl rfl) trivial trivial (hk (by simp) _)
      · rename_i hn; exact h.go _ rfl ⟨rfl, rfl⟩ hv (.inl rfl) trivial ⟨hb, by omega⟩ (hk (by simp) _)
    case stamp x =>
      refine h.go _ rfl ⟨rfl, rfl⟩ ⟨hv.live, ?_, ?_⟩ (.inl rfl) trivial hb.1 (hk (by simp) _)
      · refine List.pairwise_append.2 ⟨hv.spaced, List.pairwise_singleton _ _, fun a ha b hm => ?_⟩
        rw [List.mem_singleton.1 hm]
        have := hv.last a ha
        have := hb.2
        omega
      · intro a ha
        rcases List.mem_append.1 ha with ha | ha
        · have := hv.last a ha
          have := hb.2
          show a ≤ s.now
          omega
        · rw [List.mem_singleton.1 ha]; exact Int.le_refl _
    case sock x =>
      have hl := hv.live
      rw [hb] at hl
      split
      · exact h.go _ rfl ⟨rfl, rfl⟩ ⟨by simp only [St.socket, if_true, hl]; rfl, hv.spaced, hv.last⟩ (.inl rfl) trivial trivial (hk (by simp) _)
      · exact h.go _ rfl ⟨rfl, rfl⟩ ⟨by simp only [St.socket, Bool.false_eq_true, if_false, hl], hv.spaced, hv.last⟩ (.inl rfl) trivial trivial (hk (by simp) _)
    case clear x => exact h.go _ rfl ⟨rfl, rfl⟩ ⟨hv.live, hv.spaced, hv.last⟩ (.inl rfl) trivial trivial (hk (by simp) _)
    case openQ2 x => split <;> exact h.go _ rfl ⟨rfl, rfl⟩ hv (.inl rfl) trivial trivial (hk (by simp) _)
    case drop x => exact h.go _ rfl ⟨rfl, rfl⟩ ⟨hv.live, hv.spaced, hv.last⟩ (.inl rfl) trivial trivial (fun _ => rfl)
    case ip x => exact h.go _ rfl ⟨rfl, rfl⟩ hv (.inl rfl) rfl trivial (hk (by simp) _)
    case port x i => exact h.go _ rfl ⟨rfl, rfl⟩ hv (.inl rfl) ⟨hr, rfl⟩ trivial (hk (by simp) _)
    case handQ x i p =>
      split
      · exact h.go _ rfl ⟨rfl, rfl⟩ ⟨hv.live, hv.spaced, hv.last⟩ (.inl rfl) trivial trivial (hk (by simp) _)
      · exact h.go _ rfl ⟨rfl, rfl⟩ hv (.inl rfl) hr trivial (hk (by simp) _)
    case fam x i p => exact h.go _ rfl ⟨rfl, rfl⟩ ⟨hv.live, hv.spaced, hv.last⟩ (.inl rfl) ⟨hr.1, hr.2, rfl⟩ trivial (hk (by simp) _)
    case sport x i p =>
      exact h.go _ rfl ⟨rfl, rfl⟩ ⟨hv.live, hv.spaced, hv.last⟩ (.inl rfl) ⟨hr.1, hr.2.1, hr.2.2, by simp only [hr.2.1]⟩ trivial (hk (by simp) _)
    case sip x i p =>
      exact h.go _ rfl ⟨rfl, rfl⟩ ⟨hv.live, hv.spaced, hv.last⟩ (.inl rfl)
        (by simp only [UdpOut.Right, configured, hr.1, hr.2.2.1, hr.2.2.2]) trivial (hk (by simp) _)
    case send x =>
      split
      · exact h.go _ rfl ⟨rfl, rfl⟩ ⟨hv.live, hv.spaced, hv.last⟩ (.inl rfl) trivial trivial (hk (by simp) _)
      · refine h.go _ rfl ⟨rfl, rfl⟩ ⟨hv.live, hv.spaced, hv.last⟩ (.inr ⟨_, rfl, hr⟩) ?_ ?_ (hk (by simp) _) <;> cases ok <;> trivial
    case lose x => exact h.go _ rfl ⟨rfl, rfl⟩ ⟨hv.live, hv.spaced, hv.last⟩ (.inl rfl) trivial trivial (hk (by simp) _)
    case count x => exact h.go _ rfl ⟨rfl, rfl⟩ ⟨hv.live, hv.spaced, hv.last⟩ (.inl rfl) trivial trivial (fun _ => rfl)
  · unfold UdpOut.stepT
    rw [h.others u hu]
    exact h

/-- The other events keep what a call relies on. -/
theorem UdpOut.Single.step {c s : UdpOut.St} {t : Nat} (h : UdpOut.Single c s t) (e : UdpOut.Ev) (he : UdpOut.SameAddress e)
    (ha : match e with | .clock n => s.now ≤ n | _ => True) :
    ∃ t', UdpOut.Single c (UdpOut.step s e) t' := by
  cases e with
  | run u ok => exact ⟨t, h.stepT u ok⟩
  | clock n =>
    have ha : s.now ≤ n := ha
    refine ⟨t, h.same, ⟨h.sound.live, h.sound.spaced, h.sound.last⟩, h.net, h.others, h.locked, ?_, ?_⟩
    · have := h.right
      revert this
      show UdpOut.Right s (s.pc t) → UdpOut.Right _ (s.pc t)
      cases s.pc t <;> exact id
    · have := h.before
      revert this
      show UdpOut.Before s (s.pc t) → UdpOut.Before _ (s.pc t)
      cases s.pc t <;> simp only [UdpOut.Before] <;> (try exact id)
      intro hb; exact ⟨hb.1, by show s.openTs + 2 < n; omega⟩
  | setIp n => exact absurd he id
  | setPort n => exact absurd he id
  | stop =>
    refine ⟨t, ?_⟩
    simp only [UdpOut.step, UdpOut.St.close]
    split
    · exact h
    · rename_i fd hf
      refine ⟨h.same, ⟨?_, h.sound.spaced, h.sound.last⟩, h.net, h.others, h.locked, ?_, ?_⟩
      · have hl := h.sound.live
        rw [hf] at hl
        simp [hl]
      · have := h.right
        revert this
        show UdpOut.Right s (s.pc t) → UdpOut.Right _ (s.pc t)
        cases s.pc t <;> exact id
      · have := h.before
        revert this
        show UdpOut.Before s (s.pc t) → UdpOut.Before _ (s.pc t)
        cases s.pc t <;> simp only [UdpOut.Before] <;> (try exact id) <;> simp [hf]
  | enter u y =>
    simp only [UdpOut.step]
    split
    · rename_i hi
      have ha : ∀ u, s.pc u = .idle := by
        intro v
        by_cases hv : v = t
        · subst hv; exact h.locked hi.2
        · exact h.others v hv
      refine ⟨u, ?_⟩
      have h' : UdpOut.Single c s u := ⟨h.same, h.sound, h.net, fun v _ => ha v, fun _ => ha u, by rw [ha u]; trivial, by rw [ha u]; trivial⟩
      exact h'.go _ rfl ⟨rfl, rfl⟩ ⟨h.sound.live, h.sound.spaced, h.sound.last⟩ (.inl rfl) trivial trivial (by simp)
    · exact ⟨t, h⟩

/-- For any number of threads, whenever StopLogger comes, also in the middle of a call, if the address is not changed and the clock does not go
back: every datagram goes to the address configured, the device owns exactly the socket it knows of, so that StopLogger closes it, and the tries to
open one are at least three seconds apart.  The full statement – also when the address is changed – is false: `C126_mixed_counterexample`. -/
theorem C126_address_partial (s : UdpOut.St) (hi : ∀ t, s.pc t = .idle) (hs : UdpSound s) (es : List UdpOut.Ev)
    (he : ∀ e ∈ es, UdpOut.SameAddress e) (hf : UdpOut.Forward s.now es) :
    (∃ l, (UdpOut.run s es).net = s.net ++ l ∧ ∀ g ∈ l, g.2.1 = configured s.ip s.port) ∧ UdpSound (UdpOut.run s es) ∧
    (UdpOut.step (UdpOut.run s es) .stop).live = [] := by
  have now_stepT : ∀ (s : UdpOut.St) (t : Nat) (ok : Bool), (UdpOut.stepT s t ok).now = s.now := by
    intro s t ok
    unfold UdpOut.stepT
    split <;> (try cases ok) <;> (try simp only [St.socket, Bool.false_eq_true, if_true, if_false]) <;> (repeat' split) <;> rfl
  have key : ∀ (es : List UdpOut.Ev) (s' : UdpOut.St) (t : Nat), (∀ e ∈ es, UdpOut.SameAddress e) →
      UdpOut.Forward s'.now es → UdpOut.Single s s' t → ∃ t', UdpOut.Single s (UdpOut.run s' es) t' := by
    intro es
    induction es with
    | nil => intro s' t _ _ h; exact ⟨t, h⟩
    | cons e es ih =>
      intro s' t he hf h
      obtain ⟨t', h'⟩ := h.step e (he e (.head _)) (by
        cases e <;> first | trivial | exact hf.1)
      refine ih _ t' (fun a hm => he a (.tail _ hm)) ?_ h'
      cases e with
      | clock n => exact hf.2
      | run u ok => rw [show (UdpOut.step s' (.run u ok)).now = s'.now from now_stepT s' u ok]; exact hf
      | setIp n => exact hf
      | setPort n => exact hf
      | stop =>
        have : (UdpOut.step s' .stop).now = s'.now := by
          simp only [UdpOut.step, UdpOut.St.close]; split <;> rfl
        rw [this]; exact hf
      | enter u y =>
        have : (UdpOut.step s' (.enter u y)).now = s'.now := by
          simp only [UdpOut.step]; split <;> rfl
        rw [this]; exact hf
  obtain ⟨t, h⟩ := key es s 0 he hf ⟨⟨rfl, rfl⟩, hs, ⟨[], by simp, by simp⟩, fun u _ => hi u, fun _ => hi 0, by rw [hi 0]; trivial, by rw [hi 0]; trivial⟩
  refine ⟨h.net, h.sound, ?_⟩
  have hl := h.sound.live
  simp only [UdpOut.step, UdpOut.St.close]
  split
  · rename_i hn; rw [hl, hn]; rfl
  · rename_i fd hn; simp [hl, hn]

/-! ## One call is `udpDevice` -/

/-- The state of this model and the state of a device in `Verif/Model/Device.lean`. -/
structure Spec.SameUdp (k : Nat) (d : Device) (os : Os) (s : UdpOut.St) (o : OutSt) : Prop where
  cfg : s.ip = d.cfg.udpIp ∧ s.port = d.cfg.udpPort
  now : s.now = os.now
  sock : s.handler.isSome = (o.dev k).sock
  openTs : s.openTs = (o.dev k).openTs
  net : s.net.map (fun g => (g.2.1, g.1.2)) = o.net.map (fun g => (⟨true, g.ip, g.port⟩, g.data))

/-- The steps of thread `t` with the answers `bs`. -/
def UdpOut.steps (t : Nat) (bs : List Bool) : List UdpOut.Ev := bs.map (.run t)

/-- The second half of a call, from the second `is_open()` on, with a socket. -/
theorem UdpOut.tail_open (s : UdpOut.St) (t : Nat) (x : List Char) (ok : Bool) (hp : s.pc t = .openQ2 x) (hh : s.handler ≠ none) :
    ∃ s', UdpOut.run s (UdpOut.steps t (List.replicate 10 ok)) = s' ∧ s'.pc t = .idle ∧ s'.ip = s.ip ∧ s'.port = s.port ∧ s'.now = s.now ∧
      s'.handler = s.handler ∧ s'.openTs = s.openTs ∧ s'.net = s.net ++ [((t, x), configured s.ip s.port, ok)] ∧
      s'.lost = s.lost ++ (if ok then [] else [(t, x)]) ∧ s'.written = s.written ++ [(t, x)] := by
  cases ok <;>
    simp [UdpOut.run, UdpOut.steps, UdpOut.step, UdpOut.stepT, hp, hh, List.replicate, configured]

/-- The second half of a call without a socket. -/
theorem UdpOut.tail_closed (s : UdpOut.St) (t : Nat) (x : List Char) (ok : Bool) (hp : s.pc t = .openQ2 x) (hh : s.handler = none) :
    ∃ s', UdpOut.run s (UdpOut.steps t (List.replicate 10 ok)) = s' ∧ s'.pc t = .idle ∧ s'.ip = s.ip ∧ s'.port = s.port ∧ s'.now = s.now ∧
      s'.handler = none ∧ s'.openTs = s.openTs ∧ s'.net = s.net ∧
      s'.lost = s.lost ++ [(t, x)] ∧ s'.written = s.written := by
  simp [UdpOut.run, UdpOut.steps, UdpOut.step, UdpOut.stepT, hp, hh, List.replicate]

/-- The first half of a call. -/
theorem UdpOut.head (s : UdpOut.St) (t : Nat) (x : List Char) (ok : Bool) (hp : s.pc t = .idle) (hk : s.lock = none) :
    ∃ bs s', UdpOut.run s (.enter t x :: UdpOut.steps t bs) = s' ∧ (∀ b ∈ bs, b = ok) ∧ s'.pc t = .openQ2 x ∧ s'.ip = s.ip ∧ s'.port = s.port ∧
      s'.now = s.now ∧ s'.net = s.net ∧ s'.lost = s.lost ∧ s'.written = s.written ∧
      (if s.handler ≠ none ∨ s.now ≤ s.openTs + 2 then s'.handler = s.handler ∧ s'.openTs = s.openTs
        else s'.handler.isSome = ok ∧ s'.openTs = s.now) := by
  by_cases hh : s.handler = none
  · by_cases hn : s.now ≤ s.openTs + 2
    · refine ⟨[ok, ok], ?_⟩
      cases ok <;> simp [UdpOut.run, UdpOut.steps, UdpOut.step, UdpOut.stepT, hp, hk, hh, hn]
    · cases ok
      · refine ⟨[false, false, false, false], ?_⟩
        simp [UdpOut.run, UdpOut.steps, UdpOut.step, UdpOut.stepT, hp, hk, hh, hn, St.socket]
      · refine ⟨[true, true, true, true, true], ?_⟩
        simp [UdpOut.run, UdpOut.steps, UdpOut.step, UdpOut.stepT, hp, hk, hh, hn, St.socket]
  · refine ⟨[ok], ?_⟩
    simp [UdpOut.run, UdpOut.steps, UdpOut.step, UdpOut.stepT, hp, hk, hh]

theorem UdpOut.run_append (s : UdpOut.St) (a b : List UdpOut.Ev) : UdpOut.run s (a ++ b) = UdpOut.run (UdpOut.run s a) b :=
  List.foldl_append ..

/-- A call that runs alone is `udpDevice` of `Verif/Model/Device.lean`: the same socket, the same time of the last try, the same datagram to the same
address, and it counts a line lost or written exactly when that does. -/
theorem C126_call (k : Nat) (d : Device) (os : Os) (log : DevLog) (o o' : OutSt) (s : UdpOut.St) (t : Nat) (hi : s.pc t = .idle)
    (hk : s.lock = none) (hs : SameUdp k d os s o) (h : udpDevice k d os log o = some o') :
    ∃ as bs, (∀ a ∈ as, a = os.socket) ∧ (∀ b ∈ bs, b = decide (0 < os.sent)) ∧
      (UdpOut.run s (.enter t log.text :: UdpOut.steps t (as ++ bs))).pc t = .idle ∧
      SameUdp k d os (UdpOut.run s (.enter t log.text :: UdpOut.steps t (as ++ bs))) o' ∧
      ((o'.net = o.net ∧ (UdpOut.run s (.enter t log.text :: UdpOut.steps t (as ++ bs))).lost = s.lost ++ [(t, log.text)] ∧
          (UdpOut.run s (.enter t log.text :: UdpOut.steps t (as ++ bs))).written = s.written) ∨
        ((∃ g, o'.net = o.net ++ [g]) ∧
          (UdpOut.run s (.enter t log.text :: UdpOut.steps t (as ++ bs))).lost = s.lost ++ (if 0 < os.sent then [] else [(t, log.text)]) ∧
          (UdpOut.run s (.enter t log.text :: UdpOut.steps t (as ++ bs))).written = s.written ++ [(t, log.text)])) := by
  obtain ⟨as, s1, h1, has, p1, i1, o1, n1, e1, l1, w1, c1⟩ := UdpOut.head s t log.text os.socket hi hk
  have split1 : ∀ bs, UdpOut.run s (.enter t log.text :: UdpOut.steps t (as ++ bs)) = UdpOut.run s1 (UdpOut.steps t bs) := by
    intro bs
    have : UdpOut.Ev.enter t log.text :: UdpOut.steps t (as ++ bs) = (.enter t log.text :: UdpOut.steps t as) ++ UdpOut.steps t bs := by
      simp [UdpOut.steps]
    rw [this, UdpOut.run_append, h1]
  obtain ⟨⟨g1, g2⟩, g3, g4, g5, g6⟩ := hs
  refine ⟨as, List.replicate 10 (decide (0 < os.sent)), has, fun b hb => List.eq_of_mem_replicate hb, ?_⟩
  rw [split1]
  -- the socket after the first half is the one `udpDevice` uses
  have hsock : s1.handler.isSome = (if (o.dev k).sock then o.dev k else openSock os (o.dev k)).sock ∧
      s1.openTs = (if (o.dev k).sock then o.dev k else openSock os (o.dev k)).openTs := by
    cases hk : (o.dev k).sock
    · rw [hk] at g4
      have hn : s.handler = none := by simpa using g4
      simp only [hn, ne_eq, not_true_eq_false, false_or] at c1
      simp only [Bool.false_eq_true, if_false, openSock]
      by_cases ht : s.now ≤ s.openTs + 2
      · rw [if_pos ht] at c1
        rw [if_pos (by rw [← g3, ← g5]; exact ht), c1.1, c1.2, hk]
        exact ⟨rfl, g5⟩
      · rw [if_neg ht] at c1
        rw [if_neg (by rw [← g3, ← g5]; exact ht)]
        exact ⟨c1.1, c1.2.trans g3⟩
    · rw [hk] at g4
      have hn : s.handler ≠ none := by intro e; rw [e] at g4; exact absurd g4 (by simp)
      rw [if_pos (.inl hn)] at c1
      rw [if_pos rfl, c1.1, c1.2, hk]
      exact ⟨g4, g5⟩
  unfold udpDevice at h
  generalize (if (o.dev k).sock then o.dev k else openSock os (o.dev k)) = v at h hsock
  dsimp only at h
  cases hv : v.sock
  · rw [if_pos hv] at h
    have hn : s1.handler = none := by
      have := hsock.1
      rw [hv] at this
      simpa using this
    obtain ⟨s2, h2, p2, i2, o2, n2, q2, t2, e2, l2, w2⟩ := UdpOut.tail_closed s1 t log.text (decide (0 < os.sent)) p1 hn
    rw [h2]
    have ho : o' = o.setDev k { v with logs := loseLine v.logs } := (Option.some.inj h).symm
    subst ho
    refine ⟨p2, ⟨⟨i2.trans (i1.trans g1), o2.trans (o1.trans g2)⟩, n2.trans (n1.trans g3), ?_, ?_, ?_⟩, .inl ⟨rfl, ?_, ?_⟩⟩
    · simp [OutSt.setDev, q2, hv]
    · simp [OutSt.setDev, t2, hsock.2]
    · rw [e2, e1]; exact g6
    · rw [l2, l1]
    · rw [w2, w1]
  · rw [if_neg (by simp [hv])] at h
    have hn : s1.handler ≠ none := by
      intro e
      have := hsock.1
      rw [hv, e] at this
      exact absurd this (by simp)
    obtain ⟨s2, h2, p2, i2, o2, n2, q2, t2, e2, l2, w2⟩ := UdpOut.tail_open s1 t log.text (decide (0 < os.sent)) p1 hn
    rw [h2]
    obtain ⟨logs, hl, ho⟩ := Option.bind_eq_some_iff.1 h
    have ho := (Option.some.inj ho).symm
    subst ho
    refine ⟨p2, ⟨⟨i2.trans (i1.trans g1), o2.trans (o1.trans g2)⟩, n2.trans (n1.trans g3), ?_, ?_, ?_⟩, .inr ⟨⟨_, rfl⟩, ?_, ?_⟩⟩
    · simp [OutSt.setDev, q2, hsock.1]
    · simp [OutSt.setDev, t2, hsock.2]
    · rw [e2, e1, i1, o1]
      simp only [List.map_append, g6, List.map_cons, List.map_nil, configured, g1, g2]
    · rw [l2, l1]; simp
    · rw [w2, w1]

/-! ## Lines are not lost for want of a socket -/

/-- The operating system grants every socket, and StopLogger is not called. -/
def UdpOut.Granted : UdpOut.St → List UdpOut.Ev → Prop
  | _, [] => True
  | s, e :: es => (match e with | .run t ok => (∃ x, s.pc t = .sock x) → ok = true | .stop => False | _ => True) ∧
      UdpOut.Granted (UdpOut.step s e) es

/-- Before the socket of the call is needed. -/
def UdpOut.Early : UdpOut.PC → Prop
  | .idle | .openQ _ | .time _ | .stamp _ | .sock _ => True
  | _ => False

structure UdpOut.Served (s : UdpOut.St) (t : Nat) : Prop where
  now : 2 < s.now
  none_lost : s.dropped = [] ∧ s.unsent = []
  others : ∀ u, u ≠ t → s.pc u = .idle
  locked : s.lock = none → s.pc t = .idle
  first : s.handler = none → s.openTs = 0 ∨ ∃ x, s.pc t = .sock x
  late : ¬ UdpOut.Early (s.pc t) → s.handler ≠ none
  noDrop : ∀ x, s.pc t ≠ .drop x ∧ (s.pc t = .sock x ∨ s.pc t = .stamp x ∨ s.pc t = .time x → s.handler = none)

theorem UdpOut.Served.stepT {s : UdpOut.St} {t : Nat} (h : UdpOut.Served s t) (u : Nat) (ok : Bool) (hok : (∃ x, s.pc u = .sock x) → ok = true) :
    UdpOut.Served (UdpOut.stepT s u ok) t := by
  by_cases hu : u = t
  · subst hu
    obtain ⟨h1, h2, h3, h4, h5, h6, h7⟩ := h
    have hO : ∀ (s' : UdpOut.St) (p : UdpOut.PC), s'.pc = s.pc → ∀ v, v ≠ u → (s'.go u p).pc v = .idle := by
      intro s' p e v hv
      rw [go_pc, if_neg hv, e]; exact h3 v hv
    unfold UdpOut.stepT
    cases hp : s.pc u <;> rw [hp] at h4 h5 h6 h7 <;> dsimp only
    case idle => exact ⟨h1, h2, h3, fun _ => hp, fun e => .inl ((h5 e).resolve_right (by simp)), fun e => absurd (by rw [hp]; trivial) e, fun x => by simp [hp]⟩
    case openQ x =>
      have h4' : s.lock ≠ none := fun e => absurd (h4 e) (by simp)
      split
      · rename_i hh
        exact ⟨h1, h2, hO _ _ rfl, fun e => absurd e h4', fun e => .inl ((h5 e).resolve_right (by simp)), by simp [UdpOut.Early], by simp [hh]⟩
      · rename_i hh
        exact ⟨h1, h2, hO _ _ rfl, fun e => absurd e h4', fun e => absurd e hh, fun _ => hh, by simp⟩
    case time x =>
      have h4' : s.lock ≠ none := fun e => absurd (h4 e) (by simp)
      have hn := (h7 x).2 (by simp)
      have h0 := (h5 hn).resolve_right (by simp)
      rw [if_neg (by omega)]
      exact ⟨h1, h2, hO _ _ rfl, fun e => absurd e h4', fun _ => .inl h0, by simp [UdpOut.Early], by simp [hn]⟩
    case stamp x =>
      have h4' : s.lock ≠ none := fun e => absurd (h4 e) (by simp)
      have hn := (h7 x).2 (by simp)
      exact ⟨h1, h2, hO _ _ rfl, fun e => absurd e h4', fun _ => .inr ⟨x, by simp⟩, by simp [UdpOut.Early], by simp [hn]⟩
    case sock x =>
      have h4' : s.lock ≠ none := fun e => absurd (h4 e) (by simp)
      rw [hok ⟨x, hp⟩, if_pos rfl]
      exact ⟨h1, h2, hO _ _ rfl, fun e => absurd e h4', by simp [St.socket], by simp [St.socket], by simp⟩
    case drop x => exact absurd rfl (h7 x).1
    case count x =>
      have hh := h6 (by simp [UdpOut.Early])
      exact ⟨h1, h2, hO _ _ rfl, fun _ => by simp, fun e => absurd e hh, fun _ => hh, by simp⟩
    all_goals
      have h4' : s.lock ≠ none := fun e => absurd (h4 e) (by simp)
      have hh := h6 (by simp [UdpOut.Early])
      try rw [if_neg hh]
      exact ⟨h1, h2, hO _ _ rfl, fun e => absurd e h4', fun e => absurd e hh, fun _ => hh, by cases ok <;> simp⟩
  · unfold UdpOut.stepT
    rw [h.others u hu]
    exact h

theorem UdpOut.Served.step {s : UdpOut.St} {t : Nat} (h : UdpOut.Served s t) (e : UdpOut.Ev)
    (hg : match e with | .run t ok => (∃ x, s.pc t = .sock x) → ok = true | .stop => False | _ => True)
    (ha : match e with | .clock n => s.now ≤ n | _ => True) : ∃ t', UdpOut.Served (UdpOut.step s e) t' := by
  cases e with
  | run u ok => exact ⟨t, h.stepT u ok hg⟩
  | clock n =>
    have ha : s.now ≤ n := ha
    exact ⟨t, by have := h.now; show 2 < n; omega, h.none_lost, h.others, h.locked, h.first, h.late, h.noDrop⟩
  | setIp n => exact ⟨t, h.now, h.none_lost, h.others, h.locked, h.first, h.late, h.noDrop⟩
  | setPort n => exact ⟨t, h.now, h.none_lost, h.others, h.locked, h.first, h.late, h.noDrop⟩
  | stop => exact absurd hg id
  | enter u y =>
    simp only [UdpOut.step]
    split
    · rename_i hi
      have ht := h.locked hi.2
      refine ⟨u, h.now, h.none_lost, fun v hv => ?_, by simp, fun e => ?_, by simp [UdpOut.Early], by simp⟩
      · rw [go_pc, if_neg hv]
        by_cases hvt : v = t
        · subst hvt; exact ht
        · exact h.others v hvt
      · have := h.first e
        rw [ht] at this
        exact .inl (this.resolve_right (by simp))
    · exact ⟨t, h⟩

theorem UdpOut.now_stepT (s : UdpOut.St) (t : Nat) (ok : Bool) : (UdpOut.stepT s t ok).now = s.now := by
  unfold UdpOut.stepT
  split <;> (try cases ok) <;> (try simp only [St.socket, Bool.false_eq_true, if_true, if_false]) <;> (repeat' split) <;> rfl

/-- The clock goes on as the schedule says. -/
theorem UdpOut.Forward.next {s : UdpOut.St} {e : UdpOut.Ev} {es : List UdpOut.Ev} (hf : UdpOut.Forward s.now (e :: es)) :
    UdpOut.Forward (UdpOut.step s e).now es := by
  cases e with
  | clock n => exact hf.2
  | run u ok => rw [show (UdpOut.step s (.run u ok)).now = s.now from UdpOut.now_stepT s u ok]; exact hf
  | setIp n => exact hf
  | setPort n => exact hf
  | stop =>
    have : (UdpOut.step s .stop).now = s.now := by
      simp only [UdpOut.step, UdpOut.St.close]; split <;> rfl
    rw [this]; exact hf
  | enter u y =>
    have : (UdpOut.step s (.enter u y)).now = s.now := by
      simp only [UdpOut.step]; split <;> rfl
    rw [this]; exact hf

/-- As long as the operating system grants the sockets asked for and StopLogger is not called, no line is dropped for want of a socket: every line begun by
any thread is handed to `sendto`, also while the address is changed. -/
theorem C126_served (ip port now : Int) (hn : 2 < now) (es : List UdpOut.Ev) (hg : UdpOut.Granted (UdpOut.begin ip port now) es)
    (hf : UdpOut.Forward now es) :
    (UdpOut.run (UdpOut.begin ip port now) es).dropped = [] ∧ (UdpOut.run (UdpOut.begin ip port now) es).unsent = [] := by
  have key : ∀ (es : List UdpOut.Ev) (s : UdpOut.St) (t : Nat), UdpOut.Granted s es → UdpOut.Forward s.now es → UdpOut.Served s t →
      ∃ t', UdpOut.Served (UdpOut.run s es) t' := by
    intro es
    induction es with
    | nil => intro s t _ _ h; exact ⟨t, h⟩
    | cons e es ih =>
      intro s t hg hf h
      obtain ⟨t', h'⟩ := h.step e hg.1 (by cases e <;> first | trivial | exact hf.1)
      exact ih _ t' hg.2 hf.next h'
  obtain ⟨t, h⟩ := key es (UdpOut.begin ip port now) 0 hg hf
    ⟨hn, ⟨rfl, rfl⟩, fun _ _ => rfl, fun _ => rfl, fun _ => .inl rfl, fun e => absurd trivial e, fun x => by simp [UdpOut.begin]⟩
  exact h.none_lost

/-! ## Counterexamples -/

/-- The address is changed, from 1:10 to 2:20, while a line is being output: the datagram goes to 1:20, which was never configured. -/
theorem C126_mixed_counterexample :
    (UdpOut.run (UdpOut.begin 1 10 100) ([.enter 1 "a".toList] ++ UdpOut.steps 1 (List.replicate 7 true) ++ [.setIp 2, .setPort 20] ++
      UdpOut.steps 1 (List.replicate 6 true))).net = [((1, "a".toList), ⟨true, 1, 20⟩, true)] := by
  simp [UdpOut.steps, UdpOut.run, UdpOut.step, UdpOut.stepT, UdpOut.begin, St.socket, List.replicate]

/-- StopLogger does not wait for a statement of a sync channel that is in progress: it opens a socket after StopLogger, and sends its line; the logger is
stopped, no call is in progress, and the socket is open. -/
theorem C126_late_counterexample (ip port : Int) :
    (UdpOut.run (UdpOut.begin ip port 100) ([.enter 1 "a".toList] ++ UdpOut.steps 1 [true, true] ++ [.stop] ++
      UdpOut.steps 1 (List.replicate 12 true))).live = [3] ∧
    (UdpOut.run (UdpOut.begin ip port 100) ([.enter 1 "a".toList] ++ UdpOut.steps 1 [true, true] ++ [.stop] ++
      UdpOut.steps 1 (List.replicate 12 true))).net = [((1, "a".toList), configured ip port, true)] ∧
    ∀ t, (UdpOut.run (UdpOut.begin ip port 100) ([.enter 1 "a".toList] ++ UdpOut.steps 1 [true, true] ++ [.stop] ++
      UdpOut.steps 1 (List.replicate 12 true))).pc t = .idle := by
  refine ⟨?_, ?_, fun t => ?_⟩ <;>
    simp +contextual [UdpOut.steps, UdpOut.run, UdpOut.step, UdpOut.stepT, UdpOut.begin, St.socket, St.close, UdpOut.St.leave, List.replicate, configured]

/-! ## A case -/

/-- Thread 1 opens the socket and sends; thread 2 waits for the lock; its datagram is refused. -/
def UdpOut.twoLines : List UdpOut.Ev :=
  [.enter 1 "a".toList] ++ UdpOut.steps 1 (List.replicate 7 true) ++ [.enter 2 "b".toList, .run 2 true] ++
    UdpOut.steps 1 (List.replicate 7 true) ++ [.enter 2 "b".toList] ++ UdpOut.steps 2 (List.replicate 11 false)

theorem C126_case_two :
    UdpSound (UdpOut.begin 1 10 100) ∧ UdpOut.Granted (UdpOut.begin 1 10 100) UdpOut.twoLines ∧
    (∀ t, (UdpOut.run (UdpOut.begin 1 10 100) UdpOut.twoLines).pc t = .idle) ∧
    (UdpOut.run (UdpOut.begin 1 10 100) UdpOut.twoLines).net =
      [((1, "a".toList), ⟨true, 1, 10⟩, true), ((2, "b".toList), ⟨true, 1, 10⟩, false)] ∧
    (UdpOut.run (UdpOut.begin 1 10 100) UdpOut.twoLines).lost = [(2, "b".toList)] := by
  refine ⟨⟨rfl, List.Pairwise.nil, by simp [UdpOut.begin]⟩, ?_, fun t => ?_, ?_, ?_⟩ <;>
    simp +contextual [UdpOut.twoLines, UdpOut.steps, UdpOut.run, UdpOut.step, UdpOut.stepT, UdpOut.begin, St.socket, List.replicate, UdpOut.Granted]

end FNLog
