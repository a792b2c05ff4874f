import Verif.Proof.UdpIn

/-! # Proofs about the UDP input: bound sockets, tries, rounds, what threads do to each other -/

namespace FNLog.UdpIn
open FNLog Spec

theorem run_append (c : Cfg) (s : St) (l m : List Ev) : run c s (l ++ m) = run c (run c s l) m := List.foldl_append

theorem run_cons (c : Cfg) (s : St) (e : Ev) (l : List Ev) : run c s (e :: l) = run c (step c s e) l := rfl

/-! ## What a step does to the parts of the state -/

theorem close_pc (s : St) : s.close.pc = s.pc := by unfold St.close; split <;> rfl
theorem close_handler (s : St) : s.close.handler = none := by
  unfold St.close; split
  · assumption
  · rfl
theorem close_able (s : St) : s.close.able = s.able := by unfold St.close; split <;> rfl
theorem close_next (s : St) : s.close.next = s.next := by unfold St.close; split <;> rfl
theorem close_out (s : St) : s.close.out = s.out := by unfold St.close; split <;> rfl
theorem close_tries (s : St) : s.close.tries = s.tries ∧ s.close.openTs = s.openTs ∧ s.close.now = s.now := by
  unfold St.close; split <;> exact ⟨rfl, rfl, rfl⟩
theorem socket_pc (s : St) (ok : Bool) : (s.socket ok).pc = s.pc := by unfold St.socket; split <;> rfl
theorem socket_able (s : St) (ok : Bool) : (s.socket ok).able = s.able := by unfold St.socket; split <;> rfl
theorem socket_gone (s : St) (ok : Bool) : (s.socket ok).gone = s.gone := by unfold St.socket; split <;> rfl
theorem socket_tries (s : St) (ok : Bool) : (s.socket ok).tries = s.tries ∧ (s.socket ok).openTs = s.openTs ∧ (s.socket ok).now = s.now := by
  unfold St.socket; split <;> exact ⟨rfl, rfl, rfl⟩
theorem bindFd_some {s s' : St} {ok : Bool} (h : s.bindFd ok = some s') :
    ∃ fd, s.handler = some fd ∧ (s.socks fd).bound = none ∧ s' = s.put fd { s.socks fd with bound := some s.addr } := by
  unfold St.bindFd at h
  cases hh : s.handler with
  | none => rw [hh] at h; cases h
  | some fd =>
    rw [hh] at h
    simp only at h
    split at h
    · rename_i hc
      refine ⟨fd, rfl, ?_, by cases h; rfl⟩
      simp only [Bool.and_eq_true] at hc
      cases hb : (s.socks fd).bound with
      | none => rfl
      | some a => rw [hb] at hc; simp at hc
    · cases h

theorem recvFd_keeps (c : Cfg) (s : St) : (s.recvFd c).1.pc = s.pc ∧ (s.recvFd c).1.able = s.able ∧ (s.recvFd c).1.handler = s.handler ∧
    (s.recvFd c).1.gone = s.gone ∧ (s.recvFd c).1.tries = s.tries ∧ (s.recvFd c).1.openTs = s.openTs ∧ (s.recvFd c).1.now = s.now ∧
    (s.recvFd c).1.next = s.next ∧ (∀ fd, ((s.recvFd c).1.socks fd).bound = (s.socks fd).bound ∧ ((s.recvFd c).1.socks fd).live = (s.socks fd).live) := by
  unfold St.recvFd
  cases hh : s.handler with
  | none => simp [hh]
  | some fd =>
    simp only
    cases hq : (s.socks fd).queue with
    | nil => simp [hh]
    | cons d q =>
      refine ⟨rfl, rfl, hh, rfl, rfl, rfl, rfl, rfl, ?_⟩
      intro g
      simp only [St.put]
      split
      · rename_i e; rw [e]; exact ⟨rfl, rfl⟩
      · exact ⟨rfl, rfl⟩

/-! ## A socket of an input is bound, or a thread is about to bind it -/

def Binding : PC → Prop
  | .bindQ | .bind | .undo => True
  | _ => False

def Sending : PC → Prop
  | .openQ false | .time false | .stamp false | .sock false => True
  | _ => False

structure Binds (s : St) : Prop where
  send : ∀ t, ¬ Sending (s.pc t)
  bound : ∀ fd, s.handler = some fd → (s.socks fd).bound = none → ∃ t, Binding (s.pc t)

theorem Binds.goes {s s' : St} {t : Nat} {p : PC} (h : Binds s) (hpc : s'.pc = s.pc) (hs : ¬ Sending p)
    (hb : ∀ fd, s'.handler = some fd → (s'.socks fd).bound = none → Binding p ∨
      (¬ Binding (s.pc t) ∧ s.handler = some fd ∧ (s.socks fd).bound = none)) : Binds (s'.go t p) := by
  constructor
  · intro u; rw [go_pc]; split
    · exact hs
    · rw [hpc]; exact h.send u
  · intro fd h1 h2
    rcases hb fd h1 h2 with h3 | ⟨h3, h4, h5⟩
    · exact ⟨t, by simpa using h3⟩
    · obtain ⟨u, hu⟩ := h.bound fd h4 h5
      have : u ≠ t := fun e => h3 (e ▸ hu)
      exact ⟨u, by rw [go_pc, if_neg this, hpc]; exact hu⟩

theorem Binds.step {c : Cfg} (hc : c.both = false) {s : St} (h : Binds s) (e : Ev) : Binds (step c s e) := by
  cases e with
  | enter t =>
    simp only [UdpIn.step]
    split
    · rename_i ht; exact h.goes rfl (by simp [Sending]) (fun fd h1 h2 => Or.inr ⟨by rw [ht]; simp [Binding], h1, h2⟩)
    · exact h
  | send t =>
    simp only [UdpIn.step]
    rw [if_neg (by rw [hc]; simp)]; exact h
  | able b => exact ⟨h.send, h.bound⟩
  | addr a => exact ⟨h.send, h.bound⟩
  | clock n => exact ⟨h.send, h.bound⟩
  | arrive fd a d =>
    simp only [UdpIn.step]
    split
    · refine ⟨h.send, ?_⟩
      intro g h1 h2
      refine h.bound g h1 ?_
      simp only [St.put] at h2
      split at h2
      · rename_i e; rw [e]; exact h2
      · exact h2
    · exact h
  | run t ok =>
    have hts := h.send t
    show Binds (stepT c s t ok)
    unfold UdpIn.stepT
    cases hpc : s.pc t with
    | idle => exact h
    | able =>
      simp only
      split <;> exact h.goes rfl (by simp [Sending]) (fun fd h1 h2 => Or.inr ⟨by rw [hpc]; simp [Binding], h1, h2⟩)
    | shut => exact h.goes (close_pc s) (by simp [Sending]) (fun fd h1 => by rw [close_handler] at h1; cases h1)
    | openQ inp =>
      rw [hpc] at hts
      cases inp with
      | false => exact absurd trivial hts
      | true =>
        simp only
        split <;> exact h.goes rfl (by simp [Sending]) (fun fd h1 h2 => Or.inr ⟨by rw [hpc]; simp [Binding], h1, h2⟩)
    | time inp =>
      rw [hpc] at hts
      cases inp with
      | false => exact absurd trivial hts
      | true =>
        simp only [if_true]
        split <;> exact h.goes rfl (by simp [Sending]) (fun fd h1 h2 => Or.inr ⟨by rw [hpc]; simp [Binding], h1, h2⟩)
    | stamp inp =>
      rw [hpc] at hts
      cases inp with
      | false => exact absurd trivial hts
      | true => exact h.goes rfl (by simp [Sending]) (fun fd h1 h2 => Or.inr ⟨by rw [hpc]; simp [Binding], h1, h2⟩)
    | sock inp =>
      rw [hpc] at hts
      cases inp with
      | false => exact absurd trivial hts
      | true => exact h.goes (p := .bindQ) (socket_pc s ok) (by simp [Sending]) (fun _ _ _ => Or.inl trivial)
    | bindQ =>
      simp only
      split
      · rename_i hn; exact h.goes rfl (by simp [Sending]) (fun fd h1 => by rw [hn] at h1; cases h1)
      · exact h.goes rfl (by simp [Sending]) (fun _ _ _ => Or.inl trivial)
    | bind =>
      simp only
      split
      · rename_i s' hs'
        obtain ⟨fd, h1, _, rfl⟩ := bindFd_some hs'
        refine h.goes rfl (by simp [Sending]) ?_
        intro g h3 h4
        have : g = fd := by
          have : s.handler = some g := h3
          rw [h1] at this; cases this; rfl
        subst this
        simp [St.put] at h4
      · exact h.goes rfl (by simp [Sending]) (fun _ _ _ => Or.inl trivial)
    | undo => exact h.goes (close_pc s) (by simp [Sending]) (fun fd h1 => by rw [close_handler] at h1; cases h1)
    | readQ =>
      simp only
      split <;> exact h.goes rfl (by simp [Sending]) (fun fd h1 h2 => Or.inr ⟨by rw [hpc]; simp [Binding], h1, h2⟩)
    | init i =>
      simp only
      split <;> exact h.goes rfl (by simp [Sending]) (fun fd h1 h2 => Or.inr ⟨by rw [hpc]; simp [Binding], h1, h2⟩)
    | recv i =>
      have hk := recvFd_keeps c s
      refine h.goes hk.1 (by simp [Sending]) (fun fd h1 h2 => Or.inr ⟨by rw [hpc]; simp [Binding], ?_, ?_⟩)
      · rw [hk.2.2.1] at h1; exact h1
      · rw [(hk.2.2.2.2.2.2.2.2 fd).1] at h2; exact h2
    | len i n => exact h.goes rfl (by simp [Sending]) (fun fd h1 h2 => Or.inr ⟨by rw [hpc]; simp [Binding], h1, h2⟩)
    | fix i =>
      simp only
      split <;> exact h.goes rfl (by simp [Sending]) (fun fd h1 h2 => Or.inr ⟨by rw [hpc]; simp [Binding], h1, h2⟩)
    | test i =>
      simp only
      split <;> exact h.goes rfl (by simp [Sending]) (fun fd h1 h2 => Or.inr ⟨by rw [hpc]; simp [Binding], h1, h2⟩)
    | give i => exact h.goes rfl (by simp [Sending]) (fun fd h1 h2 => Or.inr ⟨by rw [hpc]; simp [Binding], h1, h2⟩)

theorem Binds.run {c : Cfg} (hc : c.both = false) : ∀ (es : List Ev) {s : St}, Binds s → Binds (run c s es) := by
  intro es
  induction es with
  | nil => intro s h; exact h
  | cons e es ih => intro s h; exact ih (h.step hc e)

/-! ## Nothing is dropped while the device is enabled -/

/-- The device is not disabled. -/
def Enabled (es : List Ev) : Prop := ∀ e ∈ es, match e with | .able b => b = true | _ => True

structure Keeps (s : St) : Prop where
  able : s.able = true
  shut : ∀ t, s.pc t ≠ .shut
  gone : s.gone = []

theorem Keeps.goes {s s' : St} {t : Nat} {p : PC} (h : Keeps s) (h1 : s'.pc = s.pc) (h2 : s'.able = s.able) (h3 : s'.gone = []) (hp : p ≠ .shut) :
    Keeps (s'.go t p) := by
  refine ⟨h2.trans h.able, ?_, h3⟩
  intro u; rw [go_pc]; split
  · exact hp
  · rw [h1]; exact h.shut u

theorem Keeps.step {c : Cfg} {s : St} (h : Keeps s) (hi : Inv c s) (e : Ev) (he : Enabled [e]) : Keeps (step c s e) := by
  cases e with
  | enter t =>
    simp only [UdpIn.step]
    split
    · exact h.goes rfl rfl h.gone (by simp)
    · exact h
  | send t =>
    simp only [UdpIn.step]
    split
    · exact h.goes rfl rfl h.gone (by simp)
    · exact h
  | able b => exact ⟨he _ (List.mem_singleton.mpr rfl), h.shut, h.gone⟩
  | addr a => exact ⟨h.able, h.shut, h.gone⟩
  | clock n => exact ⟨h.able, h.shut, h.gone⟩
  | arrive fd a d =>
    simp only [UdpIn.step]
    split
    · exact ⟨h.able, h.shut, h.gone⟩
    · exact h
  | run t ok =>
    have hti := hi.pcs t
    show Keeps (stepT c s t ok)
    unfold UdpIn.stepT
    cases hpc : s.pc t with
    | idle => exact h
    | able => simp only; rw [if_pos h.able]; exact h.goes rfl rfl h.gone (by simp)
    | shut => exact absurd hpc (h.shut t)
    | openQ inp =>
      simp only
      split
      · exact h.goes rfl rfl h.gone (by simp)
      · split <;> exact h.goes rfl rfl h.gone (by simp)
    | time inp =>
      simp only
      split
      · split <;> exact h.goes rfl rfl h.gone (by simp)
      · exact h.goes rfl rfl h.gone (by simp)
    | stamp inp => exact h.goes rfl rfl h.gone (by simp)
    | sock inp =>
      simp only
      split <;> exact h.goes (socket_pc s ok) (socket_able s ok) ((socket_gone s ok).trans h.gone) (by simp)
    | bindQ => simp only; split <;> exact h.goes rfl rfl h.gone (by simp)
    | bind =>
      simp only
      split
      · rename_i s' hs'
        obtain ⟨fd, _, _, rfl⟩ := bindFd_some hs'
        exact h.goes rfl rfl h.gone (by simp)
      · exact h.goes rfl rfl h.gone (by simp)
    | undo =>
      rw [hpc] at hti
      refine h.goes (close_pc s) (close_able s) ?_ (by simp)
      unfold St.close
      split
      · exact h.gone
      · rename_i fd hh
        show s.gone ++ (s.socks fd).queue = []
        rw [h.gone, hi.unb fd (hti.2 fd hh)]; rfl
    | readQ => simp only; split <;> exact h.goes rfl rfl h.gone (by simp)
    | init i => simp only; split <;> exact h.goes rfl rfl h.gone (by simp)
    | recv i =>
      have hk := recvFd_keeps c s
      exact h.goes hk.1 hk.2.1 (hk.2.2.2.1.trans h.gone) (by simp)
    | len i n => exact h.goes rfl rfl h.gone (by simp)
    | fix i => simp only; split <;> exact h.goes rfl rfl h.gone (by simp)
    | test i => simp only; split <;> exact h.goes rfl rfl h.gone (by simp)
    | give i => exact h.goes rfl rfl h.gone (by simp)

theorem Keeps.run {c : Cfg} (hN : 2 ≤ c.N) : ∀ (es : List Ev) {s : St}, Keeps s → Inv c s → Single c s es → Enabled es → Keeps (run c s es) := by
  intro es
  induction es with
  | nil => intro s h _ _ _; exact h
  | cons e es ih =>
    intro s h hi hs he
    exact ih (h.step hi e (fun x hx => he x (by rw [List.mem_singleton.mp hx]; exact List.mem_cons_self)))
      (hi.step hN e hs.1 hs.2.head) hs.2 (fun x hx => he x (List.mem_cons_of_mem _ hx))

/-! ## Tries to open the socket -/

/-- The clock does not go back. -/
def Steady : Int → List Ev → Prop
  | _, [] => True
  | now, .clock n :: es => now ≤ n ∧ Steady n es
  | now, _ :: es => Steady now es

theorem spacedBy_snoc {g : Int} : ∀ {l : List Int} {b : Int}, SpacedBy g l → (∀ a ∈ l.getLast?, a + g ≤ b) → SpacedBy g (l ++ [b]) := by
  intro l
  induction l with
  | nil => intro b _ _; trivial
  | cons a l ih =>
    intro b h hb
    cases l with
    | nil => exact ⟨hb a (by simp), trivial⟩
    | cons a' l =>
      refine ⟨h.1, ih h.2 ?_⟩
      intro x hx
      exact hb x (by simpa using hx)

structure Tries (s : St) : Prop where
  spaced : SpacedBy 3 s.tries
  last : ∀ a ∈ s.tries.getLast?, a = s.openTs
  due : ∀ t inp, s.pc t = .stamp inp → s.openTs + 2 < s.now

theorem Tries.goes {s s' : St} {t : Nat} {p : PC} (h : Tries s) (h1 : s'.pc = s.pc)
    (h2 : s'.tries = s.tries ∧ s'.openTs = s.openTs ∧ s'.now = s.now) (hp : ∀ inp, p = .stamp inp → s.openTs + 2 < s.now) : Tries (s'.go t p) := by
  obtain ⟨e1, e2, e3⟩ := h2
  refine ⟨?_, ?_, ?_⟩
  · show SpacedBy 3 s'.tries
    rw [e1]; exact h.spaced
  · show ∀ a ∈ s'.tries.getLast?, a = s'.openTs
    rw [e1, e2]; exact h.last
  · intro u inp hu
    show s'.openTs + 2 < s'.now
    rw [e2, e3]
    rw [go_pc] at hu
    split at hu
    · exact hp inp hu
    · rw [h1] at hu; exact h.due u inp hu

theorem Tries.step {c : Cfg} {s : St} (h : Tries s) (ha : Alone s) (e : Ev) (he : Steady s.now [e]) : Tries (step c s e) := by
  cases e with
  | enter t =>
    simp only [UdpIn.step]
    split
    · exact h.goes rfl ⟨rfl, rfl, rfl⟩ (by simp)
    · exact h
  | send t =>
    simp only [UdpIn.step]
    split
    · exact h.goes rfl ⟨rfl, rfl, rfl⟩ (by simp)
    · exact h
  | able b => exact ⟨h.spaced, h.last, h.due⟩
  | addr a => exact ⟨h.spaced, h.last, h.due⟩
  | clock n => exact ⟨h.spaced, h.last, fun t inp ht => by have := h.due t inp ht; have := he.1; show s.openTs + 2 < n; omega⟩
  | arrive fd a d =>
    simp only [UdpIn.step]
    split
    · exact ⟨h.spaced, h.last, h.due⟩
    · exact h
  | run t ok =>
    show Tries (stepT c s t ok)
    unfold UdpIn.stepT
    cases hpc : s.pc t with
    | idle => exact h
    | able => simp only; split <;> exact h.goes rfl ⟨rfl, rfl, rfl⟩ (by simp)
    | shut => exact h.goes (close_pc s) (close_tries s) (by simp)
    | openQ inp =>
      simp only
      split
      · exact h.goes rfl ⟨rfl, rfl, rfl⟩ (by simp)
      · split <;> exact h.goes rfl ⟨rfl, rfl, rfl⟩ (by simp)
    | time inp =>
      simp only
      split
      · split <;> exact h.goes rfl ⟨rfl, rfl, rfl⟩ (by simp)
      · exact h.goes rfl ⟨rfl, rfl, rfl⟩ (fun _ _ => by omega)
    | stamp inp =>
      have hd := h.due t inp hpc
      refine ⟨?_, ?_, ?_⟩
      · refine spacedBy_snoc h.spaced ?_
        intro a hm
        rw [h.last a hm]; omega
      · intro a hm
        have hm : a ∈ (s.tries ++ [s.now]).getLast? := hm
        simp at hm; exact hm.symm
      · intro u inp' hu
        rw [go_pc] at hu
        split at hu
        · cases hu
        · rename_i hne
          have hu : s.pc u = .stamp inp' := hu
          exact absurd (ha u t (by rw [hu]; simp) (by rw [hpc]; simp)) hne
    | sock inp =>
      simp only
      split <;> exact h.goes (socket_pc s ok) (socket_tries s ok) (by simp)
    | bindQ => simp only; split <;> exact h.goes rfl ⟨rfl, rfl, rfl⟩ (by simp)
    | bind =>
      simp only
      split
      · rename_i s' hs'
        obtain ⟨fd, _, _, rfl⟩ := bindFd_some hs'
        exact h.goes rfl ⟨rfl, rfl, rfl⟩ (by simp)
      · exact h.goes rfl ⟨rfl, rfl, rfl⟩ (by simp)
    | undo => exact h.goes (close_pc s) (close_tries s) (by simp)
    | readQ => simp only; split <;> exact h.goes rfl ⟨rfl, rfl, rfl⟩ (by simp)
    | init i => simp only; split <;> exact h.goes rfl ⟨rfl, rfl, rfl⟩ (by simp)
    | recv i =>
      have hk := recvFd_keeps c s
      exact h.goes hk.1 ⟨hk.2.2.2.2.1, hk.2.2.2.2.2.1, hk.2.2.2.2.2.2.1⟩ (by simp)
    | len i n => exact h.goes rfl ⟨rfl, rfl, rfl⟩ (by simp)
    | fix i => simp only; split <;> exact h.goes rfl ⟨rfl, rfl, rfl⟩ (by simp)
    | test i => simp only; split <;> exact h.goes rfl ⟨rfl, rfl, rfl⟩ (by simp)
    | give i => exact h.goes rfl ⟨rfl, rfl, rfl⟩ (by simp)

theorem stepT_now (c : Cfg) (s : St) (t : Nat) (ok : Bool) : (stepT c s t ok).now = s.now := by
  unfold stepT
  cases s.pc t with
  | idle => rfl
  | able => simp only; split <;> rfl
  | shut => exact (close_tries s).2.2
  | openQ inp =>
    simp only
    split
    · rfl
    · split <;> rfl
  | time inp =>
    simp only
    split
    · split <;> rfl
    · rfl
  | stamp inp => rfl
  | sock inp =>
    simp only
    split <;> exact (socket_tries s ok).2.2
  | bindQ => simp only; split <;> rfl
  | bind =>
    simp only
    split
    · rename_i s' hs'
      obtain ⟨fd, _, _, rfl⟩ := bindFd_some hs'
      rfl
    · rfl
  | undo => exact (close_tries s).2.2
  | readQ => simp only; split <;> rfl
  | init i => simp only; split <;> rfl
  | recv i => exact (recvFd_keeps c s).2.2.2.2.2.2.1
  | len i n => rfl
  | fix i => simp only; split <;> rfl
  | test i => simp only; split <;> rfl
  | give i => rfl

theorem Steady.split {c : Cfg} {s : St} {e : Ev} {es : List Ev} (h : Steady s.now (e :: es)) :
    Steady s.now [e] ∧ Steady (UdpIn.step c s e).now es := by
  cases e with
  | clock n => exact ⟨⟨h.1, trivial⟩, h.2⟩
  | enter t =>
    refine ⟨trivial, ?_⟩
    have : (UdpIn.step c s (.enter t)).now = s.now := by simp only [UdpIn.step]; split <;> rfl
    rw [this]; exact h
  | send t =>
    refine ⟨trivial, ?_⟩
    have : (UdpIn.step c s (.send t)).now = s.now := by simp only [UdpIn.step]; split <;> rfl
    rw [this]; exact h
  | run t ok => exact ⟨trivial, by rw [show (UdpIn.step c s (.run t ok)).now = s.now from stepT_now c s t ok]; exact h⟩
  | able b => exact ⟨trivial, h⟩
  | addr a => exact ⟨trivial, h⟩
  | arrive fd a d =>
    refine ⟨trivial, ?_⟩
    have : (UdpIn.step c s (.arrive fd a d)).now = s.now := by simp only [UdpIn.step]; split <;> rfl
    rw [this]; exact h

theorem Tries.run {c : Cfg} : ∀ (es : List Ev) {s : St}, Tries s → Single c s es → Steady s.now es → Tries (run c s es) := by
  intro es
  induction es with
  | nil => intro s h _ _; exact h
  | cons e es ih =>
    intro s h hs hst
    have := Steady.split (c := c) hst
    exact ih (h.step hs.1 e this.1) hs.2 this.2

/-! ## A socket that is open stays as it is -/

/-- Places where the handle is not changed. -/
def Calm : PC → Prop
  | .shut | .time _ | .stamp _ | .sock _ | .bindQ | .bind | .undo => False
  | _ => True

structure Stays (s : St) (fd : Nat) (b : Option Addr) : Prop where
  able : s.able = true
  handler : s.handler = some fd
  bound : (s.socks fd).bound = b
  calm : ∀ t, Calm (s.pc t)

theorem Stays.goes {s s' : St} {fd : Nat} {b : Option Addr} {t : Nat} {p : PC} (h : Stays s fd b) (h1 : s'.pc = s.pc) (h2 : s'.able = s.able)
    (h3 : s'.handler = s.handler) (h4 : (s'.socks fd).bound = (s.socks fd).bound) (hp : Calm p) : Stays (s'.go t p) fd b := by
  refine ⟨h2.trans h.able, h3.trans h.handler, h4.trans h.bound, ?_⟩
  intro u; rw [go_pc]; split
  · exact hp
  · rw [h1]; exact h.calm u

theorem Stays.step {c : Cfg} {s : St} {fd : Nat} {b : Option Addr} (h : Stays s fd b) (e : Ev) (he : Enabled [e]) : Stays (step c s e) fd b := by
  cases e with
  | enter t =>
    simp only [UdpIn.step]
    split
    · exact h.goes rfl rfl rfl rfl trivial
    · exact h
  | send t =>
    simp only [UdpIn.step]
    split
    · exact h.goes rfl rfl rfl rfl trivial
    · exact h
  | able b => exact ⟨he _ (List.mem_singleton.mpr rfl), h.handler, h.bound, h.calm⟩
  | addr a => exact ⟨h.able, h.handler, h.bound, h.calm⟩
  | clock n => exact ⟨h.able, h.handler, h.bound, h.calm⟩
  | arrive g a d =>
    simp only [UdpIn.step]
    split
    · refine ⟨h.able, h.handler, ?_, h.calm⟩
      simp only [St.put]
      split
      · rename_i e; rw [← e]; exact h.bound
      · exact h.bound
    · exact h
  | run t ok =>
    have hc := h.calm t
    show Stays (stepT c s t ok) fd b
    unfold UdpIn.stepT
    cases hpc : s.pc t with
    | idle => exact h
    | able => simp only; rw [if_pos h.able]; exact h.goes rfl rfl rfl rfl trivial
    | openQ inp =>
      simp only
      rw [if_neg (by rw [h.handler]; simp)]
      split <;> exact h.goes rfl rfl rfl rfl trivial
    | shut => rw [hpc] at hc; exact hc.elim
    | time inp => rw [hpc] at hc; exact hc.elim
    | stamp inp => rw [hpc] at hc; exact hc.elim
    | sock inp => rw [hpc] at hc; exact hc.elim
    | bindQ => rw [hpc] at hc; exact hc.elim
    | bind => rw [hpc] at hc; exact hc.elim
    | undo => rw [hpc] at hc; exact hc.elim
    | readQ => simp only; split <;> exact h.goes rfl rfl rfl rfl trivial
    | init i => simp only; split <;> exact h.goes rfl rfl rfl rfl trivial
    | recv i =>
      have hk := recvFd_keeps c s
      exact h.goes hk.1 hk.2.1 hk.2.2.1 (hk.2.2.2.2.2.2.2.2 fd).1 trivial
    | len i n => exact h.goes rfl rfl rfl rfl trivial
    | fix i => simp only; split <;> exact h.goes rfl rfl rfl rfl trivial
    | test i => simp only; split <;> exact h.goes rfl rfl rfl rfl trivial
    | give i => exact h.goes rfl rfl rfl rfl trivial

theorem Stays.run {c : Cfg} {fd : Nat} {b : Option Addr} : ∀ (es : List Ev) {s : St}, Stays s fd b → Enabled es → Stays (run c s es) fd b := by
  intro es
  induction es with
  | nil => intro s h _; exact h
  | cons e es ih =>
    intro s h he
    exact ih (h.step e (fun x hx => he x (by rw [List.mem_singleton.mp hx]; exact List.mem_cons_self)))
      (fun x hx => he x (List.mem_cons_of_mem _ hx))

/-! ## A socket that is not in the handle any more is never closed -/

structure Leaked (s : St) (fd : Nat) : Prop where
  live : (s.socks fd).live = true
  lost : s.handler ≠ some fd
  old : fd < s.next

theorem Leaked.go {s : St} {fd t : Nat} {p : PC} (h : Leaked s fd) : Leaked (s.go t p) fd := ⟨h.live, h.lost, h.old⟩

theorem Leaked.close {s : St} {fd : Nat} (h : Leaked s fd) : Leaked s.close fd := by
  refine ⟨?_, by rw [close_handler]; simp, by rw [close_next]; exact h.old⟩
  unfold St.close
  split
  · exact h.live
  · rename_i g hg
    have : fd ≠ g := fun e => h.lost (e ▸ hg)
    simp only [St.put, if_neg this]; exact h.live

theorem Leaked.socket {s : St} {fd : Nat} (ok : Bool) (h : Leaked s fd) : Leaked (s.socket ok) fd := by
  have := h.old
  unfold St.socket
  split
  · refine ⟨?_, ?_, ?_⟩
    · simp only [St.put]; rw [if_neg (by omega)]; exact h.live
    · intro e; injection e with e; omega
    · show fd < s.next + 1; omega
  · exact ⟨h.live, by simp, h.old⟩

theorem Leaked.step {c : Cfg} {s : St} {fd : Nat} (h : Leaked s fd) (e : Ev) : Leaked (step c s e) fd := by
  cases e with
  | enter t =>
    simp only [UdpIn.step]
    split
    · exact h.go
    · exact h
  | send t =>
    simp only [UdpIn.step]
    split
    · exact h.go
    · exact h
  | able b => exact ⟨h.live, h.lost, h.old⟩
  | addr a => exact ⟨h.live, h.lost, h.old⟩
  | clock n => exact ⟨h.live, h.lost, h.old⟩
  | arrive g a d =>
    simp only [UdpIn.step]
    split
    · refine ⟨?_, h.lost, h.old⟩
      simp only [St.put]
      split
      · rename_i e; rw [← e]; exact h.live
      · exact h.live
    · exact h
  | run t ok =>
    show Leaked (stepT c s t ok) fd
    unfold UdpIn.stepT
    cases hpc : s.pc t with
    | idle => exact h
    | able => simp only; split <;> exact h.go
    | shut => exact h.close.go
    | openQ inp =>
      simp only
      split
      · exact h.go
      · split <;> exact h.go
    | time inp =>
      simp only
      split
      · split <;> exact h.go
      · exact h.go
    | stamp inp => exact ⟨h.live, h.lost, h.old⟩
    | sock inp => simp only; split <;> exact (h.socket ok).go
    | bindQ => simp only; split <;> exact h.go
    | bind =>
      simp only
      split
      · rename_i s' hs'
        obtain ⟨g, _, _, rfl⟩ := bindFd_some hs'
        refine ⟨?_, h.lost, h.old⟩
        simp only [St.put, St.go]
        split
        · rename_i e; rw [← e]; exact h.live
        · exact h.live
      · exact h.go
    | undo => exact h.close.go
    | readQ => simp only; split <;> exact h.go
    | init i => simp only; split <;> exact ⟨h.live, h.lost, h.old⟩
    | recv i =>
      have hk := recvFd_keeps c s
      refine ⟨?_, ?_, ?_⟩
      · exact ((hk.2.2.2.2.2.2.2.2 fd).2).trans h.live
      · show (s.recvFd c).1.handler ≠ some fd
        rw [hk.2.2.1]; exact h.lost
      · show fd < (s.recvFd c).1.next
        rw [hk.2.2.2.2.2.2.2.1]; exact h.old
    | len i n => exact ⟨h.live, h.lost, h.old⟩
    | fix i => simp only; split <;> exact ⟨h.live, h.lost, h.old⟩
    | test i => simp only; split <;> exact h.go
    | give i => exact ⟨h.live, h.lost, h.old⟩

theorem Leaked.run {c : Cfg} {fd : Nat} : ∀ (es : List Ev) {s : St}, Leaked s fd → Leaked (run c s es) fd := by
  intro es
  induction es with
  | nil => intro s h; exact h
  | cons e es ih => intro s h; exact ih (h.step e)

/-! ## A round -/

theorem step_enter (c : Cfg) {s : St} {t : Nat} (h : s.pc t = .idle) : step c s (.enter t) = s.go t .able := if_pos h

/-- `k` steps of a thread. -/
abbrev steps (t k : Nat) : List Ev := List.replicate k (.run t true)

theorem run_steps_succ (c : Cfg) (s : St) (t k : Nat) : run c s (steps t (k + 1)) = run c (stepT c s t true) (steps t k) := rfl

theorem run_steps_add (c : Cfg) (s : St) (t j k : Nat) : run c s (steps t (j + k)) = run c (run c s (steps t j)) (steps t k) := by
  rw [← run_append]; unfold steps; rw [List.replicate_append_replicate]

/-- What a round has done: `m` datagrams taken. -/
structure Took (s s' : St) (t fd m : Nat) : Prop where
  handler : s'.handler = some fd
  able : s'.able = s.able
  queue : (s'.socks fd).queue = (s.socks fd).queue.drop m
  taken : s'.taken = s.taken ++ (s.socks fd).queue.take m
  pc : ∀ u, u ≠ t → s'.pc u = s.pc u

theorem loop {c : Cfg} (hN : 2 ≤ c.N) (t fd : Nat) : ∀ (n i : Nat) (s : St), i + n = 1000 → s.pc t = .init i → s.handler = some fd →
    ∃ k, (run c s (steps t k)).pc t = .idle ∧ Took s (run c s (steps t k)) t fd (roundTakes n (s.socks fd).queue) := by
  intro n
  induction n with
  | zero =>
    intro i s hi hpc hh
    refine ⟨1, ?_⟩
    have e1 : run c s (steps t 1) = s.go t .idle := by
      show stepT c s t true = _
      unfold stepT; rw [hpc]; exact if_neg (by omega)
    rw [e1]
    refine ⟨by simp, hh, rfl, by simp [roundTakes, St.go], by simp [roundTakes, St.go], fun u hu => by simp [hu]⟩
  | succ n ih =>
    intro i s hi hpc hh
    obtain ⟨s1, hs1⟩ : ∃ s1 : St, s1 = { s with content := over s.content ['\x00'], clen := 0 }.go t (.recv i) := ⟨_, rfl⟩
    have e1 : stepT c s t true = s1 := by
      unfold stepT; rw [hpc, hs1]; exact if_pos (by omega)
    have p1 : s1.pc t = .recv i := by rw [hs1]; simp
    have h1 : s1.handler = some fd := by rw [hs1]; exact hh
    have k1 : s1.socks = s.socks := by rw [hs1]; rfl
    have t1 : s1.taken = s.taken := by rw [hs1]; rfl
    have a1 : s1.able = s.able := by rw [hs1]; rfl
    have o1 : ∀ u, u ≠ t → s1.pc u = s.pc u := by intro u hu; rw [hs1]; simp [hu]
    -- the receive
    obtain ⟨s2, n2, q2, hs2, hn2, h2, tk2, a2, o2⟩ : ∃ (s2 : St) (n2 : Nat) (q2 : List (List Char)), (s1.recvFd c) = (s2, n2) ∧ (s2.socks fd).queue = q2 ∧
        s2.handler = some fd ∧
        (((s.socks fd).queue = [] ∧ q2 = [] ∧ n2 = 0 ∧ s2.taken = s.taken) ∨
          (∃ d q, (s.socks fd).queue = d :: q ∧ q2 = q ∧ n2 = (d.take c.N).length ∧ s2.taken = s.taken ++ [d])) ∧
        s2.able = s.able ∧ s2.pc = s1.pc := by
      unfold St.recvFd
      rw [h1]
      simp only
      cases hq : (s1.socks fd).queue with
      | nil => exact ⟨s1, 0, [], rfl, hq, h1, Or.inl ⟨by rw [← k1]; exact hq, rfl, rfl, t1⟩, a1, rfl⟩
      | cons d q =>
        refine ⟨_, _, q, rfl, by simp [St.put], h1, Or.inr ⟨d, q, by rw [← k1]; exact hq, rfl, rfl, ?_⟩, a1, rfl⟩
        show s1.taken ++ [d] = _
        rw [t1]
    have e2 : stepT c s1 t true = s2.go t (.len i n2) := by
      unfold stepT; rw [p1]; simp only; rw [hs2]
    obtain ⟨s3, hs3⟩ : ∃ s3 : St, s3 = { s2.go t (.len i n2) with clen := n2 }.go t (.fix i) := ⟨_, rfl⟩
    have e3 : stepT c (s2.go t (.len i n2)) t true = s3 := by
      unfold stepT; rw [go_pc, if_pos rfl, hs3]
    have p3 : s3.pc t = .fix i := by rw [hs3]; simp
    have c3 : s3.clen = n2 := by rw [hs3]; rfl
    obtain ⟨cont, e4⟩ : ∃ cont, stepT c s3 t true = { s3 with content := cont }.go t (.test i) := by
      unfold stepT; rw [p3]
      simp only
      by_cases hx : s3.clen = c.N
      · exact ⟨_, if_pos hx⟩
      · exact ⟨s3.content, if_neg hx⟩
    obtain ⟨s4, hs4⟩ : ∃ s4 : St, s4 = { s3 with content := cont }.go t (.test i) := ⟨_, rfl⟩
    rw [← hs4] at e4
    have p4 : s4.pc t = .test i := by rw [hs4]; simp
    have c4 : s4.clen = n2 := by rw [hs4]; exact c3
    have h4 : s4.handler = some fd := by rw [hs4, hs3]; exact h2
    have k4 : (s4.socks fd).queue = q2 := by rw [hs4, hs3]; exact hn2
    have t4 : s4.taken = s2.taken := by rw [hs4, hs3]; rfl
    have a4 : s4.able = s.able := by rw [hs4, hs3]; exact a2
    have o4 : ∀ u, u ≠ t → s4.pc u = s.pc u := by
      intro u hu
      rw [hs4, hs3]
      simp only [go_pc, if_neg hu]
      rw [o2]; exact o1 u hu
    have r4 : run c s (steps t 4) = s4 := by
      rw [run_steps_succ, e1, run_steps_succ, e2, run_steps_succ, e3, run_steps_succ, e4]; rfl
    by_cases hz : n2 = 0
    · have e5 : stepT c s4 t true = s4.go t .idle := by
        unfold stepT; rw [p4]; exact if_pos (c4.trans hz)
      refine ⟨5, ?_⟩
      have r5 : run c s (steps t 5) = s4.go t .idle := by
        rw [show 5 = 4 + 1 from rfl, run_steps_add, r4, run_steps_succ, e5]; rfl
      rw [r5]
      refine ⟨by simp, h4, a4, ?_, ?_, fun u hu => by simp [hu, o4 u hu]⟩
      · show (s4.socks fd).queue = _
        rw [k4]
        rcases tk2 with ⟨w1, w2, _, _⟩ | ⟨d, q, w1, w2, w3, _⟩
        · rw [w1, w2]; rfl
        · have hd : d = [] := by
            rw [hz, List.length_take] at w3
            exact List.length_eq_zero_iff.mp (by omega)
          rw [w1, w2, hd]; rfl
      · show s4.taken = _
        rw [t4]
        rcases tk2 with ⟨w1, _, _, w4⟩ | ⟨d, q, w1, w2, w3, w4⟩
        · rw [w1, w4]; simp
        · have hd : d = [] := by
            rw [hz, List.length_take] at w3
            exact List.length_eq_zero_iff.mp (by omega)
          rw [w1, w4, hd]; rfl
    · rcases tk2 with ⟨_, _, w3, _⟩ | ⟨d, q, w1, w2, w3, w4⟩
      · exact absurd w3 hz
      · have hd : d.isEmpty = false := by
          cases d with
          | nil => simp at w3; exact absurd w3 hz
          | cons => rfl
        have hrt : roundTakes (n + 1) (d :: q) = roundTakes n q + 1 := by
          rw [Nat.add_comm (roundTakes n q) 1]
          show (if d.isEmpty = true then 1 else 1 + roundTakes n q) = _
          rw [hd]; rfl
        have e5 : stepT c s4 t true = s4.go t (.give i) := by
          unfold stepT; rw [p4]; exact if_neg (by rw [c4]; exact hz)
        obtain ⟨s6, hs6⟩ : ∃ s6 : St, s6 = { s4.go t (.give i) with out := s4.out ++ [s4.content.take s4.clen] }.go t (.init (i + 1)) := ⟨_, rfl⟩
        have e6 : stepT c (s4.go t (.give i)) t true = s6 := by
          unfold stepT; rw [go_pc, if_pos rfl, hs6]; rfl
        have r6 : run c s (steps t 6) = s6 := by
          rw [show 6 = 4 + 2 from rfl, run_steps_add, r4, run_steps_succ, e5, run_steps_succ, e6]; rfl
        have h6 : s6.handler = some fd := by rw [hs6]; exact h4
        have k6 : (s6.socks fd).queue = q := by rw [hs6]; exact k4.trans w2
        have t6 : s6.taken = s.taken ++ [d] := by rw [hs6]; exact t4.trans w4
        obtain ⟨k, hk1, hk2⟩ := ih (i + 1) s6 (by omega) (by rw [hs6]; simp) h6
        refine ⟨6 + k, ?_⟩
        rw [run_steps_add, r6]
        refine ⟨hk1, hk2.handler, ?_, ?_, ?_, ?_⟩
        · rw [hk2.able, hs6]; exact a4
        · rw [hk2.queue, k6, w1, hrt]; rfl
        · rw [hk2.taken, k6, w1, t6, hrt]; simp
        · intro u hu
          rw [hk2.pc u hu, hs6]
          simp only [go_pc, if_neg hu]
          exact o4 u hu

/-- A whole round of a thread when nobody else is inside. -/
theorem round {c : Cfg} (hN : 2 ≤ c.N) {t fd : Nat} {s : St} (hp : s.pc t = .idle) (ha : s.able = true) (hh : s.handler = some fd) :
    ∃ k, (run c s (.enter t :: steps t k)).pc t = .idle ∧ Took s (run c s (.enter t :: steps t k)) t fd (roundTakes 1000 (s.socks fd).queue) := by
  obtain ⟨s3, hs3⟩ : ∃ s3 : St, s3 = (((s.go t .able).go t (.openQ true)).go t .readQ).go t (.init 0) := ⟨_, rfl⟩
  have r3 : run c s (.enter t :: steps t 3) = s3 := by
    rw [run_cons, step_enter c hp]
    have e1 : stepT c (s.go t .able) t true = (s.go t .able).go t (.openQ true) := by
      unfold stepT; rw [go_pc, if_pos rfl]; exact if_pos ha
    have e2 : stepT c ((s.go t .able).go t (.openQ true)) t true = ((s.go t .able).go t (.openQ true)).go t .readQ := by
      unfold stepT; rw [go_pc, if_pos rfl]
      simp only
      rw [if_neg (by show ¬ s.handler = none; rw [hh]; simp)]; rfl
    have e3 : stepT c (((s.go t .able).go t (.openQ true)).go t .readQ) t true = s3 := by
      unfold stepT; rw [go_pc, if_pos rfl, hs3]
      exact if_neg (by show ¬ s.handler = none; rw [hh]; simp)
    rw [run_steps_succ, e1, run_steps_succ, e2, run_steps_succ, e3]; rfl
  have k3 : s3.socks = s.socks := by rw [hs3]; rfl
  obtain ⟨k, hk1, hk2⟩ := loop (c := c) hN t fd 1000 0 s3 rfl (by rw [hs3]; simp) (by rw [hs3]; exact hh)
  refine ⟨3 + k, ?_⟩
  rw [show Ev.enter t :: steps t (3 + k) = (.enter t :: steps t 3) ++ steps t k by unfold steps; rw [← List.replicate_append_replicate]; rfl,
    run_append, r3]
  refine ⟨hk1, hk2.handler, ?_, ?_, ?_, ?_⟩
  · rw [hk2.able, hs3]; rfl
  · rw [hk2.queue, k3]
  · rw [hk2.taken, k3, hs3]; rfl
  · intro u hu; rw [hk2.pc u hu, hs3]; simp [hu]

/-- Only `t` moves. -/
def Only (t : Nat) (es : List Ev) : Prop := ∀ e ∈ es, match e with | .enter u => u = t | .run u _ => u = t | .send u => u = t | _ => True

theorem stepT_other (c : Cfg) (s : St) {t u : Nat} (ok : Bool) (hu : u ≠ t) : (stepT c s t ok).pc u = s.pc u := by
  unfold stepT
  cases s.pc t with
  | idle => rfl
  | able => simp only; split <;> simp [hu]
  | shut => simp [hu, close_pc]
  | openQ inp =>
    simp only
    split
    · simp [hu]
    · split <;> simp [hu]
  | time inp =>
    simp only
    split
    · split <;> simp [hu]
    · simp [hu]
  | stamp inp => simp [hu]
  | sock inp =>
    simp only
    split <;> simp [hu, socket_pc]
  | bindQ => simp only; split <;> simp [hu]
  | bind =>
    simp only
    split
    · rename_i s' hs'
      obtain ⟨fd, _, _, rfl⟩ := bindFd_some hs'
      simp [hu, St.put]
    · simp [hu]
  | undo => simp [hu, close_pc]
  | readQ => simp only; split <;> simp [hu]
  | init i => simp only; split <;> simp [hu]
  | recv i => simp [hu, (recvFd_keeps c s).1]
  | len i n => simp [hu]
  | fix i => simp only; split <;> simp [hu]
  | test i => simp only; split <;> simp [hu]
  | give i => simp [hu]

theorem single_only {c : Cfg} {t : Nat} : ∀ (es : List Ev) (s : St), Only t es → (∀ u, u ≠ t → s.pc u = .idle) → Single c s es := by
  have al : ∀ s : St, (∀ u, u ≠ t → s.pc u = .idle) → Alone s := by
    intro s h u v hu hv
    have h1 : u = t := Classical.byContradiction fun hne => hu (h u hne)
    have h2 : v = t := Classical.byContradiction fun hne => hv (h v hne)
    rw [h1, h2]
  intro es
  induction es with
  | nil => intro s _ h; exact al s h
  | cons e es ih =>
    intro s ho h
    refine ⟨al s h, ih _ (fun x hx => ho x (List.mem_cons_of_mem _ hx)) ?_⟩
    have he := ho e List.mem_cons_self
    intro u hu
    cases e with
    | enter v =>
      simp only at he; subst he
      simp only [UdpIn.step]; split
      · simp [hu, h u hu]
      · exact h u hu
    | send v =>
      simp only at he; subst he
      simp only [UdpIn.step]; split
      · simp [hu, h u hu]
      · exact h u hu
    | run v ok =>
      simp only at he; subst he
      exact (stepT_other c s ok hu).trans (h u hu)
    | able b => exact h u hu
    | addr a => exact h u hu
    | clock n => exact h u hu
    | arrive fd a d =>
      simp only [UdpIn.step]; split
      · exact h u hu
      · exact h u hu

theorem single_append {c : Cfg} : ∀ {l m : List Ev} {s : St}, Single c s l → Single c (run c s l) m → Single c s (l ++ m) := by
  intro l
  induction l with
  | nil => intro m s _ h; exact h
  | cons e l ih => intro m s h1 h2; exact ⟨h1.1, ih h1.2 h2⟩

theorem only_round (t k : Nat) : Only t (.enter t :: steps t k) := by
  intro e he
  rcases List.mem_cons.mp he with rfl | he
  · rfl
  · rw [List.eq_of_mem_replicate he]

theorem roundTakes_pos {n : Nat} {q : List (List Char)} (h : q ≠ []) : 1 ≤ roundTakes (n + 1) q := by
  cases q with
  | nil => exact absurd rfl h
  | cons d q => unfold roundTakes; split <;> omega

end FNLog.UdpIn
