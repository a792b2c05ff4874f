import Verif.Model.Mem

/-!
# The UDP input of a device, with its socket

Transcribed from `fn_channel.h` 202-255 (the end of a round of `EnterProcChannel`, for one device with `in_type: udp`), `fn_file.h` 421-541
(`UDPHandler`) and `fn_out_udp_device.h` 24-27.  On an async channel the thread of the channel makes these rounds, on a sync channel every log
statement makes one (fn_channel.h 520), and no lock is taken.  `Verif/Model/Device.lean` has the loop 238-253 with an open socket and one thread;
here the socket is opened, bound and closed, any number of threads may be inside, and the configuration is changed meanwhile
(`HotUpdateLogger`, the setters).

Simplifications:
* A step is one access to a shared variable or one call to the operating system; `close` (fn_file.h 502-513), InitLogData, and handing the
  record to the device (252) are one step each.  The two fields of the address are read at once.
* `socket` never returns the number of a closed socket again.  `fcntl` succeeds.
* Which datagrams arrive at which socket is decided by the environment among those the socket is bound for.
-/

namespace FNLog.UdpIn
open FNLog

/-- An address and a port, as passed to `bind`. -/
abbrev Addr := Nat × Nat

/-- What is fixed: `LOG_SIZE`; if the device is a UDP device for output as well; which destinations an address that is bound hears
(0.0.0.0 hears all). -/
structure Cfg where
  N : Nat
  both : Bool
  hears : Addr → Addr → Bool

/-- A socket in the kernel. -/
structure Sock where
  live : Bool := false
  bound : Option Addr := none
  queue : List (List Char) := []

/-- Where a thread is; `inp`: `open` was called for the input (222) and not for the output (fn_out_udp_device.h 26); `i` counts the datagrams
of the round (238). -/
inductive PC where
  | idle
  | able
  | shut
  | openQ (inp : Bool)
  | time (inp : Bool)
  | stamp (inp : Bool)
  | sock (inp : Bool)
  | bindQ
  | bind
  | undo
  | readQ
  | init (i : Nat)
  | recv (i : Nat)
  | len (i n : Nat)
  | fix (i : Nat)
  | test (i : Nat)
  | give (i : Nat)
deriving DecidableEq

/-- The state. -/
structure St where
  /-- `config_fields_[DEVICE_CFG_ABLE]`, the address -/
  able : Bool
  addr : Addr
  /-- `handler_` (`none` is -1), `open_ts_` -/
  handler : Option Nat
  openTs : Int
  /-- `udp_buffer_.content_`, `content_len_` -/
  content : List Char
  clen : Nat
  /-- sockets made so far, the clock -/
  socks : Nat → Sock
  next : Nat
  now : Int
  pc : Nat → PC
  /-- history: datagrams the kernel accepted; received by `recvfrom`; dropped when a socket was closed; texts handed to the device; times of
  the tries to open -/
  kept : List (List Char)
  taken : List (List Char)
  gone : List (List Char)
  out : List (List Char)
  tries : List Int

/-- Go to a place. -/
def St.go (s : St) (t : Nat) (p : PC) : St := { s with pc := fun u => if u = t then p else s.pc u }

/-- Change a socket. -/
def St.put (s : St) (fd : Nat) (k : Sock) : St := { s with socks := fun j => if j = fd then k else s.socks j }

/-- Stores into the array. -/
def over (c d : List Char) : List Char := d ++ c.drop d.length

/-- `UDPHandler::close` (fn_file.h 502-513). -/
def St.close (s : St) : St :=
  match s.handler with
  | none => s
  | some fd => { s.put fd {} with handler := none, gone := s.gone ++ (s.socks fd).queue }

/-- `handler_ = socket(…)` (fn_file.h 461). -/
def St.socket (s : St) (ok : Bool) : St :=
  if ok then { s.put s.next { live := true } with handler := some s.next, next := s.next + 1 } else { s with handler := none }

/-- `::bind` (fn_file.h 493): fails for -1, for a socket that is bound, and when the operating system refuses. -/
def St.bindFd (s : St) (ok : Bool) : Option St :=
  match s.handler with
  | none => none
  | some fd => if ok && (s.socks fd).bound.isNone then some (s.put fd { s.socks fd with bound := some s.addr }) else none

/-- `UDPHandler::read` (fn_file.h 530-543): the state and the result. -/
def St.recvFd (c : Cfg) (s : St) : St × Nat :=
  match s.handler with
  | none => (s, 0)
  | some fd =>
    match (s.socks fd).queue with
    | [] => (s, 0)
    | d :: q => ({ s.put fd { s.socks fd with queue := q } with content := over s.content (d.take c.N), taken := s.taken ++ [d] },
        (d.take c.N).length)

/-- One step of thread `t`; `ok` is the answer of the operating system. -/
def stepT (c : Cfg) (s : St) (t : Nat) (ok : Bool) : St :=
  match s.pc t with
  | .idle => s
  -- 212
  | .able => if s.able then s.go t (.openQ true) else s.go t .shut
  -- 214-218
  | .shut => s.close.go t .idle
  -- 221, fn_out_udp_device.h 24
  | .openQ inp => if s.handler = none then s.go t (.time inp) else if inp then s.go t .readQ else s.go t .idle
  -- fn_file.h 455
  | .time inp => if s.now ≤ s.openTs + 2 then (if inp then s.go t .bindQ else s.go t .idle) else s.go t (.stamp inp)
  -- 459
  | .stamp inp => { s with openTs := s.now, tries := s.tries ++ [s.now] }.go t (.sock inp)
  -- 461-466
  | .sock inp =>
    let s' := s.socket ok
    if inp then s'.go t .bindQ else s'.go t .idle
  -- fn_channel.h 224
  | .bindQ => if s.handler = none then s.go t .readQ else s.go t .bind
  -- 226
  | .bind =>
    match s.bindFd ok with
    | some s' => s'.go t .readQ
    | none => s.go t .undo
  -- 227-230
  | .undo => s.close.go t .readQ
  -- 234
  | .readQ => if s.handler = none then s.go t .idle else s.go t (.init 0)
  -- 238, 240
  | .init i => if i < 1000 then { s with content := over s.content ['\x00'], clen := 0 }.go t (.recv i) else s.go t .idle
  -- 241
  | .recv i => (s.recvFd c).1.go t (.len i (s.recvFd c).2)
  | .len i n => { s with clen := n }.go t (.fix i)
  -- 242-246
  | .fix i =>
    if s.clen = c.N then { s with content := (s.content.set (c.N - 2) '\n').set (c.N - 1) '\x00' }.go t (.test i) else s.go t (.test i)
  -- 247-250
  | .test i => if s.clen = 0 then s.go t .idle else s.go t (.give i)
  -- 252
  | .give i => { s with out := s.out ++ [s.content.take s.clen] }.go t (.init (i + 1))

/-- What can happen: a thread comes to the input (fn_channel.h 203), or to the output (fn_out_udp_device.h 19) of the device; a step; a change of
the configuration; time goes by; a datagram for an address arrives at a socket. -/
inductive Ev where
  | enter (t : Nat)
  | send (t : Nat)
  | run (t : Nat) (ok : Bool)
  | able (b : Bool)
  | addr (a : Addr)
  | clock (now : Int)
  | arrive (fd : Nat) (a : Addr) (d : List Char)

/-- The socket is bound for the address. -/
def Sock.takes (c : Cfg) (k : Sock) (a : Addr) : Bool :=
  k.live && (match k.bound with | none => false | some b => c.hears b a)

/-- One event. -/
def step (c : Cfg) (s : St) : Ev → St
  | .enter t => if s.pc t = .idle then s.go t .able else s
  | .send t => if s.pc t = .idle ∧ c.both = true then s.go t (.openQ false) else s
  | .run t ok => stepT c s t ok
  | .able b => { s with able := b }
  | .addr a => { s with addr := a }
  | .clock now => { s with now := now }
  | .arrive fd a d =>
    if (s.socks fd).takes c a then
      { s.put fd { s.socks fd with queue := (s.socks fd).queue ++ [d] } with kept := s.kept ++ [d] }
    else s

/-- Run a schedule. -/
def run (c : Cfg) (s : St) (es : List Ev) : St := es.foldl (step c) s

/-- A logger that has just been started (or started again: `ts` is what an earlier session has left in `open_ts_`). -/
def begin (c : Cfg) (able : Bool) (addr : Addr) (ts now : Int) : St :=
  { able := able, addr := addr, handler := none, openTs := ts, content := List.replicate c.N '\x00', clen := 0, socks := fun _ => {},
    next := 0, now := now, pc := fun _ => .idle, kept := [], taken := [], gone := [], out := [], tries := [] }

/-- Never are two threads inside at the same time. -/
def Single (c : Cfg) : St → List Ev → Prop
  | s, [] => ∀ t u, s.pc t ≠ .idle → s.pc u ≠ .idle → t = u
  | s, e :: es => (∀ t u, s.pc t ≠ .idle → s.pc u ≠ .idle → t = u) ∧ Single c (step c s e) es

end FNLog.UdpIn
