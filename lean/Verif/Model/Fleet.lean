import Verif.Model.Threads

/-!
# Several channels of a logger

`Logger` holds up to `MAX_CHANNEL_SIZE` channels (`shm_->channels_`, fn_data.h 293-315) with a ring, devices, a lock and
(async) a thread each.  The channels share the file system, screen and network, and a thread has one date cache for all
channels (`static thread_local`, fn_fmt.h 321-322).

Simplifications: as in `Verif/Model/Threads.lean`; `logger_state_` is changed for one channel after the other (the real change
for all at once is the special case without other events in between); a thread may be inside statements of several channels
(the real threads are inside one, or inside nested ones).
-/

namespace FNLog
open Ring (St)

/-- The part of the state that belongs to one channel. -/
structure Part where
  ring : St Piece
  dev : Nat → DevSt
  pos : Nat → Nat
  made : List (Nat × Call × List StreamOp)
  visits : List Visit

/-- The state of all channels, and what they share. -/
structure Fleet where
  part : Nat → Part
  fs : Fs
  screen : List (List Char)
  net : List Datagram
  caches : Nat → DateCache

/-- What the events of channel `i` see. -/
def Fleet.crew (f : Fleet) (i : Nat) : Crew where
  ring := (f.part i).ring
  out := ⟨f.fs, (f.part i).dev, f.screen, f.net⟩
  caches := f.caches
  pos := (f.part i).pos
  made := (f.part i).made
  visits := (f.part i).visits

/-- What the events of channel `i` change. -/
def Fleet.put (f : Fleet) (i : Nat) (c : Crew) : Fleet where
  part := Ring.upd f.part i ⟨c.ring, c.out.dev, c.pos, c.made, c.visits⟩
  fs := c.out.fs
  screen := c.out.screen
  net := c.out.net
  caches := c.caches

/-- An event of a channel; `S i` is channel `i` (fn_core.h, fn_channel.h: every function works on one channel of the logger). -/
def fleetAct (S : Nat → Setup) (f : Fleet) (e : Nat × Act) : Option Fleet :=
  (act (S e.1) (f.crew e.1) e.2).map (f.put e.1)

/-- A sequence of events. -/
def fleetActs (S : Nat → Setup) : List (Nat × Act) → Fleet → Option Fleet
  | [], f => some f
  | e :: es, f => do
    let f ← fleetAct S f e
    fleetActs S es f

/-- Fresh channels with the given devices on the given file system. -/
def fleet (S : Nat → Setup) (o : OutSt) (dev : Nat → Nat → DevSt) : Fleet where
  part i := ⟨Ring.init (S i).cfg, dev i, fun _ => 0, [], []⟩
  fs := o.fs
  screen := o.screen
  net := o.net
  caches := fun _ => DateCache.zero

/-- No compare-and-swap succeeds although the index went round its ring (see `OnTime`). -/
def FleetOnTime (S : Nat → Setup) : List (Nat × Act) → Fleet → Prop
  | [], _ => True
  | e :: es, f => (∀ t, e.2 = .run t → Ring.timelyAt (S e.1).cfg (f.part e.1).ring t) ∧
    ∀ f', fleetAct S f e = some f' → FleetOnTime S es f'

end FNLog
