import Verif.Model.Shut

/-!
# What survives a power failure

`FileHandler::close` (fn_file.h 146-162) asks the operating system to write the file to the disk (`fsync`, 153-155) and closes the
stream (`fclose`, 159), in this order: what is still in the buffer of the stream gets to the operating system afterwards.  `fflush`
(fn_file.h 193) only gets to the operating system.

The events are those of `Verif/Model/Shut.lean`; `disk` is what a power failure leaves of the files, if the disk does not get more than
it is asked for.

Simplifications: names are on the disk at once (creation, renaming and removal of files); `fsync` does not fail; the second `fsync`
(155) does nothing.
-/

namespace FNLog

/-- `fsync` of the open file (fn_file.h 152-155). -/
def BufSt.sync (s : BufSt) (disk : Fs) : Fs :=
  match s.handle with
  | none => disk
  | some p => disk.set p (s.fs p)

/-- The disk after OpenFileDevice (fn_out_file_device.h 192-315) for the device `s`. -/
def diskOpen (E : FileEnv) (channelId : Int) (d : Device) (log : FileLog) (s : BufSt) (disk : Fs) : Fs :=
  let limit := limitOut d s.logs log.content.length
  let close := limit || periodOut d s.logs log.ts
  -- 240-243
  let disk := if close then s.sync disk else disk
  if close = false ∧ s.handle ≠ none then disk
  else match fullPath E.proc (E.tm log.ts) E.fuel d channelId with
    | none => disk
    | some path =>
      if path.length ≥ 250 then disk
      else
        let disk := rotate d limit path disk
        if log.opens = false then disk else disk.set path (some ((disk path).getD []))

/-- The disk after `FileHandler::write` (fn_file.h 179-188): an incomplete write closes the file. -/
def diskWrite (log : FileLog) (s : BufSt) (disk : Fs) : Fs :=
  if log.content = [] then disk
  else match log.short with
    | none => disk
    | some _ => s.sync disk

/-- The disk after EnterProcOutFileDevice (fn_out_file_device.h 319-339). -/
def diskLine (E : FileEnv) (channelId : Int) (d : Device) (log : FileLog) (s : BufSt) (disk : Fs) : Fs :=
  if s.handle = none ∧ s.logs DEVICE_LOG_LAST_TRY_CREATE_TIMESTAMP + 5 > log.ts then disk
  else
    let disk := diskOpen E channelId d log s disk
    match bufOpenFileDevice E channelId d log s with
    | none => disk
    | some s' => if s'.handle = none then disk else diskWrite log s' disk

/-- A file device at position `j` gets the record `log` at its visit number `n`. -/
def diskEnter (S : Setup) (n j : Nat) (d : Device) (log : DevLog) (f : FCrew) (disk : Fs) : Fs :=
  if d.outType = .file then
    diskLine S.fenv S.channel.id d ⟨log.ts, log.priority, log.text, (S.os n j).opens, (S.os n j).short⟩ (f.file j) disk
  else disk

/-- The disk after one round of the loop of DispatchLog (fn_channel.h 55-94). -/
def diskDispatch (S : Setup) (t k : Nat) (d : Device) (f : FCrew) (disk : Fs) : Fs :=
  match decode (f.crew.ring.cell (k % S.cfg.L)) with
  | none => disk
  | some (h, text) =>
    if dispatchTakes d h.priority h.category h.identify = some true then
      diskEnter S (visitsOf (f.crew.pos t) f.crew.visits).length (f.crew.pos t) d (devLog h text) f disk
    else disk

/-- The disk after one event in the state `f`. -/
def diskAct (S : Setup) (f : FCrew) (disk : Fs) : Act → Fs
  | .run t =>
    match f.fl t, f.crew.ring.pc t, S.channel.devices[f.crew.pos t]? with
    | .off, .cDisp k, some d => diskDispatch S t k d f disk
    | _, _, _ => disk
  | _ => disk

/-- The disk after one event, StopLogger included (fn_core.h 193-199). -/
def diskEvent (S : Setup) (f : FCrew) (disk : Fs) : FEv → Fs
  | .act e => diskAct S f disk e
  | .clean => disk
  | .shut j => if mayShut S f then (f.file j).sync disk else disk

/-- A sequence of events: the state and the disk. -/
def diskEvents (S : Setup) (B : Stdio) : List FEv → FCrew → Fs → Option (FCrew × Fs)
  | [], f, disk => some (f, disk)
  | e :: es, f, disk => do
    let f' ← fEvent S B f e
    diskEvents S B es f' (diskEvent S f disk e)

end FNLog
