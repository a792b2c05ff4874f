import Verif.Spec.UdpOut

set_option linter.unusedSimpArgs false

namespace FNLog.UdpOut
open Spec

@[simp] theorem go_pc (s : St) (t u : Nat) (p : PC) : (s.go t p).pc u = if u = t then p else s.pc u := rfl
@[simp] theorem go_self (s : St) (t : Nat) (p : PC) : (s.go t p).pc t = p := if_pos rfl
@[simp] theorem go_begun (s : St) (t : Nat) (p : PC) : (s.go t p).begun = s.begun := rfl
@[simp] theorem go_dropped (s : St) (t : Nat) (p : PC) : (s.go t p).dropped = s.dropped := rfl
@[simp] theorem go_net (s : St) (t : Nat) (p : PC) : (s.go t p).net = s.net := rfl
@[simp] theorem go_unsent (s : St) (t : Nat) (p : PC) : (s.go t p).unsent = s.unsent := rfl
@[simp] theorem go_lost (s : St) (t : Nat) (p : PC) : (s.go t p).lost = s.lost := rfl
@[simp] theorem go_written (s : St) (t : Nat) (p : PC) : (s.go t p).written = s.written := rfl
@[simp] theorem go_handler (s : St) (t : Nat) (p : PC) : (s.go t p).handler = s.handler := rfl
@[simp] theorem go_openTs (s : St) (t : Nat) (p : PC) : (s.go t p).openTs = s.openTs := rfl
@[simp] theorem go_addr (s : St) (t : Nat) (p : PC) : (s.go t p).addr = s.addr := rfl
@[simp] theorem go_live (s : St) (t : Nat) (p : PC) : (s.go t p).live = s.live := rfl
@[simp] theorem go_next (s : St) (t : Nat) (p : PC) : (s.go t p).next = s.next := rfl
@[simp] theorem go_now (s : St) (t : Nat) (p : PC) : (s.go t p).now = s.now := rfl
@[simp] theorem go_ip (s : St) (t : Nat) (p : PC) : (s.go t p).ip = s.ip := rfl
@[simp] theorem go_port (s : St) (t : Nat) (p : PC) : (s.go t p).port = s.port := rfl
@[simp] theorem go_tries (s : St) (t : Nat) (p : PC) : (s.go t p).tries = s.tries := rfl

@[simp] theorem leave_pc (s : St) (t u : Nat) : (s.leave t).pc u = if u = t then .idle else s.pc u := rfl
@[simp] theorem leave_self (s : St) (t : Nat) : (s.leave t).pc t = .idle := if_pos rfl
@[simp] theorem leave_begun (s : St) (t : Nat) : (s.leave t).begun = s.begun := rfl
@[simp] theorem leave_dropped (s : St) (t : Nat) : (s.leave t).dropped = s.dropped := rfl
@[simp] theorem leave_net (s : St) (t : Nat) : (s.leave t).net = s.net := rfl
@[simp] theorem leave_unsent (s : St) (t : Nat) : (s.leave t).unsent = s.unsent := rfl
@[simp] theorem leave_lost (s : St) (t : Nat) : (s.leave t).lost = s.lost := rfl
@[simp] theorem leave_written (s : St) (t : Nat) : (s.leave t).written = s.written := rfl
@[simp] theorem leave_handler (s : St) (t : Nat) : (s.leave t).handler = s.handler := rfl
@[simp] theorem leave_openTs (s : St) (t : Nat) : (s.leave t).openTs = s.openTs := rfl
@[simp] theorem leave_addr (s : St) (t : Nat) : (s.leave t).addr = s.addr := rfl
@[simp] theorem leave_live (s : St) (t : Nat) : (s.leave t).live = s.live := rfl
@[simp] theorem leave_next (s : St) (t : Nat) : (s.leave t).next = s.next := rfl
@[simp] theorem leave_now (s : St) (t : Nat) : (s.leave t).now = s.now := rfl
@[simp] theorem leave_ip (s : St) (t : Nat) : (s.leave t).ip = s.ip := rfl
@[simp] theorem leave_port (s : St) (t : Nat) : (s.leave t).port = s.port := rfl
@[simp] theorem leave_tries (s : St) (t : Nat) : (s.leave t).tries = s.tries := rfl
@[simp] theorem leave_lock (s : St) (t : Nat) : (s.leave t).lock = none := rfl
@[simp] theorem go_lock (s : St) (t : Nat) (p : PC) : (s.go t p).lock = s.lock := rfl

/-- The text whose fate is open. -/
def cur : PC → List (List Char)
  | .openQ x | .time x | .stamp x | .sock x | .clear x | .openQ2 x | .drop x | .ip x | .port x _ | .handQ x _ _ | .fam x _ _
  | .sport x _ _ | .sip x _ _ | .send x => [x]
  | _ => []

/-- What is still to be counted as lost, and as written. -/
def toLose : PC → List (List Char)
  | .lose x => [x]
  | _ => []

def toCount : PC → List (List Char)
  | .lose x | .count x => [x]
  | _ => []

/-- The counts of one text of one thread. -/
structure Sums (s : St) (t : Nat) (x : List Char) : Prop where
  ends : s.begun.count (t, x) = s.dropped.count (t, x) + (udpHanded s).count (t, x) + s.unsent.count (t, x) + (cur (s.pc t)).count x
  lost : s.lost.count (t, x) + (toLose (s.pc t)).count x = s.dropped.count (t, x) + s.unsent.count (t, x) + (udpRefused s).count (t, x)
  written : s.written.count (t, x) + (toCount (s.pc t)).count x = (udpHanded s).count (t, x) + s.unsent.count (t, x)

theorem count_pair (t u : Nat) (x y : List Char) : [(u, y)].count (t, x) = if u = t then [y].count x else 0 := by
  by_cases h : u = t
  · subst h
    by_cases h' : y = x
    · subst h'; simp
    · simp [h', Prod.ext_iff]
  · simp [h, Prod.ext_iff]

theorem handed_snoc (s : St) (g : (Nat × List Char) × SockAddr × Bool) :
    (s.net ++ [g]).map (·.1) = s.net.map (·.1) ++ [g.1] := by simp

theorem refused_snoc (s : St) (g : (Nat × List Char) × SockAddr × Bool) :
    ((s.net ++ [g]).filter (fun g => !g.2.2)).map (·.1) =
      (s.net.filter (fun g => !g.2.2)).map (·.1) ++ if g.2.2 then [] else [g.1] := by
  cases h : g.2.2 <;> simp [h]

theorem Sums.stepT {s : St} {t : Nat} {x : List Char} (h : Sums s t x) (u : Nat) (ok : Bool) : Sums (stepT s u ok) t x := by
  obtain ⟨h1, h2, h3⟩ := h
  unfold udpHanded at h1 h3
  unfold udpRefused at h2
  unfold UdpOut.stepT
  by_cases hu : u = t
  · subst hu
    cases hp : s.pc u <;> rw [hp] at h1 h2 h3 <;> simp only [cur, toLose, toCount, List.count_nil] at h1 h2 h3 <;>
      (try cases ok) <;> (try simp only [St.socket, Bool.false_eq_true, if_true, if_false]) <;> (repeat' split) <;>
      refine ⟨?_, ?_, ?_⟩ <;>
      (try simp only [udpHanded, udpRefused, go_self, leave_self, leave_begun, leave_dropped, leave_net, leave_unsent, leave_lost, leave_written, go_begun, go_dropped, go_net, go_unsent, go_lost, go_written, handed_snoc, refused_snoc,
        List.count_append, count_pair, hp, cur, toLose, toCount, if_true, Bool.false_eq_true, if_false, List.count_nil]) <;>
      omega
  · have hu' : ¬ t = u := fun e => hu e.symm
    cases hp : s.pc u <;>
      (try cases ok) <;> (try simp only [St.socket, Bool.false_eq_true, if_true, if_false]) <;> (repeat' split) <;>
      refine ⟨?_, ?_, ?_⟩ <;>
      (try simp only [udpHanded, udpRefused, go_pc, leave_pc, leave_begun, leave_dropped, leave_net, leave_unsent, leave_lost, leave_written, hu', go_begun, go_dropped, go_net, go_unsent, go_lost, go_written, handed_snoc, refused_snoc,
        List.count_append, count_pair, hu, if_true, Bool.false_eq_true, if_false, List.count_nil]) <;>
      omega

theorem Sums.step {s : St} {t : Nat} {x : List Char} (h : Sums s t x) (e : Ev) : Sums (step s e) t x := by
  cases e with
  | run u ok => exact h.stepT u ok
  | clock n => exact ⟨h.ends, h.lost, h.written⟩
  | setIp n => exact ⟨h.ends, h.lost, h.written⟩
  | setPort n => exact ⟨h.ends, h.lost, h.written⟩
  | stop =>
    simp only [UdpOut.step]
    unfold St.close
    split
    · exact h
    · exact ⟨h.ends, h.lost, h.written⟩
  | enter u y =>
    simp only [UdpOut.step]
    split
    · rename_i hi
      have hi := hi.1
      obtain ⟨h1, h2, h3⟩ := h
      unfold udpHanded at h1 h3
      unfold udpRefused at h2
      by_cases hu : u = t
      · subst hu
        rw [hi] at h1 h2 h3
        simp only [cur, toLose, toCount, List.count_nil] at h1 h2 h3
        refine ⟨?_, ?_, ?_⟩ <;>
          simp only [udpHanded, udpRefused, go_self, leave_self, leave_begun, leave_dropped, leave_net, leave_unsent, leave_lost, leave_written, go_begun, go_dropped, go_net, go_unsent, go_lost, go_written, List.count_append,
            count_pair, cur, toLose, toCount, if_true, List.count_nil] <;> omega
      · have hu' : ¬ t = u := fun e => hu e.symm
        refine ⟨?_, ?_, ?_⟩ <;>
          simp only [udpHanded, udpRefused, go_pc, leave_pc, leave_begun, leave_net, hu', hu, go_begun, go_dropped, go_net, go_unsent, go_lost, go_written, List.count_append,
            count_pair, if_false] <;> omega
    · exact h

theorem Sums.run {t : Nat} {x : List Char} : ∀ (es : List Ev) {s : St}, Sums s t x → Sums (run s es) t x := by
  intro es
  induction es with
  | nil => intro s h; exact h
  | cons e es ih => intro s h; exact ih (h.step e)

theorem Sums.begin (ip port now : Int) (t : Nat) (x : List Char) : Sums (UdpOut.begin ip port now) t x :=
  ⟨rfl, rfl, rfl⟩

/-- The order of the datagrams of a thread. -/
def Row (t : Nat) (s : St) : Prop :=
  ((udpHanded s).filter (·.1 = t) ++ (cur (s.pc t)).map (fun x => (t, x))).Sublist (s.begun.filter (·.1 = t))

theorem filter_pair (t u : Nat) (x : List Char) : [(u, x)].filter (fun p => decide (p.1 = t)) = if u = t then [(t, x)] else [] := by
  by_cases h : u = t
  · subst h; simp
  · simp [h]

theorem Row.stepT {s : St} {t : Nat} (h : Row t s) (u : Nat) (ok : Bool) : Row t (stepT s u ok) := by
  unfold Row udpHanded at h
  unfold UdpOut.stepT
  by_cases hu : u = t
  · subst hu
    have hd : ((s.net.map (·.1)).filter (fun p => decide (p.1 = u))).Sublist (s.begun.filter (fun p => decide (p.1 = u))) :=
      (List.sublist_append_left _ _).trans h
    cases hp : s.pc u <;> rw [hp] at h <;> simp only [cur, List.map_cons, List.map_nil, List.append_nil] at h <;>
      (try cases ok) <;> (try simp only [St.socket, Bool.false_eq_true, if_true, if_false]) <;> (repeat' split) <;>
      (try simp only [Row, udpHanded, go_self, leave_self, leave_begun, leave_dropped, leave_net, leave_unsent, leave_lost, leave_written, go_begun, go_net, handed_snoc, List.filter_append, filter_pair, hp, cur, if_true,
        List.map_cons, List.map_nil, List.append_nil]) <;>
      first
      | exact h
      | exact hd
  · have hu' : ¬ t = u := fun e => hu e.symm
    cases hp : s.pc u <;>
      (try cases ok) <;> (try simp only [St.socket, Bool.false_eq_true, if_true, if_false]) <;> (repeat' split) <;>
      (try simp only [Row, udpHanded, go_pc, leave_pc, leave_begun, leave_net, hu', hu, go_begun, go_net, handed_snoc, List.filter_append, filter_pair, if_false,
        List.append_nil]) <;>
      exact h

theorem Row.step {s : St} {t : Nat} (h : Row t s) (e : Ev) : Row t (step s e) := by
  cases e with
  | run u ok => exact h.stepT u ok
  | clock n => exact h
  | setIp n => exact h
  | setPort n => exact h
  | stop =>
    simp only [UdpOut.step]
    unfold St.close
    split
    · exact h
    · exact h
  | enter u y =>
    simp only [UdpOut.step]
    split
    · rename_i hi
      have hi := hi.1
      unfold Row udpHanded at h
      by_cases hu : u = t
      · subst hu
        rw [hi] at h
        simp only [cur, List.map_nil, List.append_nil] at h
        simp only [Row, udpHanded, go_self, leave_self, leave_begun, leave_dropped, leave_net, leave_unsent, leave_lost, leave_written, go_begun, go_net, List.filter_append, filter_pair, cur, if_true, List.map_cons, List.map_nil]
        exact h.append (List.Sublist.refl _)
      · have hu' : ¬ t = u := fun e => hu e.symm
        simp only [Row, udpHanded, go_pc, leave_pc, leave_begun, leave_net, hu', hu, go_begun, go_net, List.filter_append, filter_pair, if_false, List.append_nil]
        exact h
    · exact h

theorem Row.run {t : Nat} : ∀ (es : List Ev) {s : St}, Row t s → Row t (run s es) := by
  intro es
  induction es with
  | nil => intro s h; exact h
  | cons e es ih => intro s h; exact ih (h.step e)

end FNLog.UdpOut
