import Verif.Model.Device

/-!
# The output of a UDP device by several threads

Transcribed from `fn_out_udp_device.h` 19-45 and `fn_file.h` 421-528 (`UDPHandler`).  On a sync channel every log statement outputs
records (fn_channel.h 520, 124), under the lock of the channel (fn_channel.h 28); on an async channel only its thread does.  `udpDevice` of
`Verif/Model/Device.lean` is one call from beginning to end; here the accesses of the calls of several threads are separate steps, because
neither `HotUpdateLogger`, which changes the address, nor `StopLogger`, which closes the socket, takes that lock.

Simplifications:
* A step is one access to a shared variable or one call to the operating system.  `close` (fn_file.h 502-513) is one step, `memset` (467) is
  one step, and of the statistics only the numbers of lines lost and written are kept.
* `socket` never returns the number of a closed socket again, and nothing else in the program does: `sendto` on a closed socket fails.  `fcntl`
  has no effect on what follows.
-/

namespace FNLog.UdpOut
open FNLog

/-- Where a thread is: the text it outputs, and the address and the port it has loaded. -/
inductive PC where
  | idle
  /-- fn_out_udp_device.h 25: `is_open()` -/
  | openQ (x : List Char)
  /-- fn_file.h 455: `time(NULL) <= open_ts_ + 2` -/
  | time (x : List Char)
  /-- 459: `open_ts_ = time(NULL)` -/
  | stamp (x : List Char)
  /-- 461: `handler_ = socket(…)`, and the test of `handler_` -/
  | sock (x : List Char)
  /-- 467: `memset(&addr_, 0, sizeof(addr_))` -/
  | clear (x : List Char)
  /-- fn_out_udp_device.h 29: `is_open()` -/
  | openQ2 (x : List Char)
  /-- 31: DEVICE_LOG_TOTAL_LOSE_LINE -/
  | drop (x : List Char)
  /-- 35, 36: the loads -/
  | ip (x : List Char)
  | port (x : List Char) (i : Int)
  /-- fn_file.h 518: the test of `handler_` -/
  | handQ (x : List Char) (i p : Int)
  /-- 522, 523, 524: the assignments to `addr_` -/
  | fam (x : List Char) (i p : Int)
  | sport (x : List Char) (i p : Int)
  | sip (x : List Char) (i p : Int)
  /-- 525: `sendto` -/
  | send (x : List Char)
  /-- fn_out_udp_device.h 40: DEVICE_LOG_TOTAL_LOSE_LINE -/
  | lose (x : List Char)
  /-- 42: DEVICE_LOG_TOTAL_WRITE_LINE -/
  | count (x : List Char)
deriving DecidableEq

/-- `addr_`: the family is AF_INET or 0. -/
structure SockAddr where
  inet : Bool
  ip : Nat
  port : Nat
deriving DecidableEq

/-- The state. -/
structure St where
  /-- `config_fields_[DEVICE_CFG_UDP_IP]`, `[DEVICE_CFG_UDP_PORT]` -/
  ip : Int
  port : Int
  /-- `handler_` (`none` is -1), `open_ts_`, `addr_` -/
  handler : Option Nat
  openTs : Int
  addr : SockAddr
  /-- DEVICE_LOG_TOTAL_LOSE_LINE, DEVICE_LOG_TOTAL_WRITE_LINE: the increments, as (thread, text); the statistic is their number -/
  lost : List (Nat × List Char)
  written : List (Nat × List Char)
  /-- the open sockets of the device in the kernel, the number of the next one, the clock -/
  live : List Nat
  next : Nat
  now : Int
  pc : Nat → PC
  /-- the thread that has `read_locks_[channel_id]` -/
  lock : Option Nat
  /-- history, as (thread, text): the calls begun, and those given up in line 31; the datagrams handed to `sendto`, with the address, and
  whether it sent them; the texts for which there was no socket in line 518 or 525 of fn_file.h; the times of the tries to open -/
  begun : List (Nat × List Char)
  dropped : List (Nat × List Char)
  net : List ((Nat × List Char) × SockAddr × Bool)
  unsent : List (Nat × List Char)
  tries : List Int

/-- Go to a place. -/
def St.go (s : St) (t : Nat) (p : PC) : St := { s with pc := fun u => if u = t then p else s.pc u }

/-- The end of the call: EnterProcDevice unlocks (fn_data.h 367-373). -/
def St.leave (s : St) (t : Nat) : St := { s with lock := none }.go t .idle

/-- `handler_ = socket(…)` (fn_file.h 461). -/
def St.socket (s : St) (ok : Bool) : St :=
  if ok then { s with handler := some s.next, next := s.next + 1, live := s.next :: s.live } else { s with handler := none }

/-- `UDPHandler::close` (fn_file.h 502-513). -/
def St.close (s : St) : St :=
  match s.handler with
  | none => s
  | some fd => { s with handler := none, live := s.live.filter (· ≠ fd) }

/-- One step of thread `t`; `ok` is the answer of the operating system. -/
def stepT (s : St) (t : Nat) (ok : Bool) : St :=
  match s.pc t with
  | .idle => s
  | .openQ x => if s.handler = none then s.go t (.time x) else s.go t (.openQ2 x)
  | .time x => if s.now ≤ s.openTs + 2 then s.go t (.openQ2 x) else s.go t (.stamp x)
  | .stamp x => { s with openTs := s.now, tries := s.tries ++ [s.now] }.go t (.sock x)
  | .sock x => if ok then (s.socket true).go t (.clear x) else (s.socket false).go t (.openQ2 x)
  | .clear x => { s with addr := ⟨false, 0, 0⟩ }.go t (.openQ2 x)
  | .openQ2 x => if s.handler = none then s.go t (.drop x) else s.go t (.ip x)
  | .drop x => { s with lost := s.lost ++ [(t, x)], dropped := s.dropped ++ [(t, x)] }.leave t
  | .ip x => s.go t (.port x s.ip)
  | .port x i => s.go t (.handQ x i s.port)
  | .handQ x i p =>
    if s.handler = none then { s with unsent := s.unsent ++ [(t, x)] }.go t (.lose x) else s.go t (.fam x i p)
  | .fam x i p => { s with addr := { s.addr with inet := true } }.go t (.sport x i p)
  | .sport x i p => { s with addr := { s.addr with port := (p % 2 ^ 16).toNat } }.go t (.sip x i p)
  | .sip x i _ => { s with addr := { s.addr with ip := (i % 2 ^ 32).toNat } }.go t (.send x)
  | .send x =>
    -- `sendto(-1, …)` fails
    if s.handler = none then { s with unsent := s.unsent ++ [(t, x)] }.go t (.lose x)
    else { s with net := s.net ++ [((t, x), s.addr, ok)] }.go t (if ok then .count x else .lose x)
  | .lose x => { s with lost := s.lost ++ [(t, x)] }.go t (.count x)
  | .count x => { s with written := s.written ++ [(t, x)] }.leave t

/-- What can happen: a call gets the lock and begins, a thread makes a step, the clock advances, a field of the address is stored, StopLogger closes the socket
(fn_core.h 200-206). -/
inductive Ev where
  | enter (t : Nat) (x : List Char)
  | run (t : Nat) (ok : Bool)
  | clock (now : Int)
  | setIp (ip : Int)
  | setPort (port : Int)
  | stop

/-- One event. -/
def step (s : St) : Ev → St
  | .enter t x => if s.pc t = .idle ∧ s.lock = none then { s with begun := s.begun ++ [(t, x)], lock := some t }.go t (.openQ x) else s
  | .run t ok => stepT s t ok
  | .clock now => { s with now := now }
  | .setIp ip => { s with ip := ip }
  | .setPort port => { s with port := port }
  | .stop => s.close

/-- Run a schedule. -/
def run (s : St) (es : List Ev) : St := es.foldl step s

/-- A new UDPHandler (fn_file.h 433-439) at time `now`, for the address given. -/
def begin (ip port now : Int) : St where
  ip := ip
  port := port
  handler := none
  openTs := 0
  addr := ⟨false, 0, 0⟩
  lost := []
  written := []
  live := []
  next := 3
  now := now
  pc := fun _ => .idle
  lock := none
  begun := []
  dropped := []
  net := []
  unsent := []
  tries := []

end FNLog.UdpOut
