import Verif.Model.Filter
import Verif.Model.File

/-!
# Output devices and dispatch

Transcribed from `/repo/src/include`: `EnterProcOutScreenDevice` (fn_out_screen_device.h 18-60, the branch for systems
other than Windows), `EnterProcOutUDPDevice` (fn_out_udp_device.h 18-45), `UDPHandler` (fn_file.h 421-549),
`EnterProcOutEmptyDevice` (fn_out_empty_device.h 19-25), `EnterProcDevice` (fn_channel.h 23-50), `DispatchLog`
(fn_channel.h 53-95), and the UDP input of `EnterProcChannel` (fn_channel.h 204-253).

What the operating system answers to a call is a parameter (`Os`).  `none` = undefined behaviour or a call that does not
return.  Every file has one name: two devices with the same open file, of which one renames it, are not modelled (the
second would go on writing to the renamed file).
-/

namespace FNLog

/-- Answers of the operating system while one log is handed to one device. -/
structure Os where
  /-- `fopen` and `fstat` succeed -/
  opens : Bool := true
  /-- the number of bytes `fwrite` writes, if not all -/
  short : Option Nat := none
  /-- `time(NULL)` -/
  now : Int := 0
  /-- `socket` succeeds -/
  socket : Bool := true
  /-- the result of `sendto` -/
  sent : Int := 1

/-- What the devices look at: `timestamp_`, `priority_`, the bytes `content_[0, content_len_)`, and `content_` as a C
string. -/
structure DevLog where
  ts : Int
  priority : Int
  text : List Char
  cstr : List Char

/-- State of a device: its open file, its socket (`is_open`, `open_ts_`), its statistics. -/
structure DevSt where
  handle : Option (List Char) := none
  sock : Bool := false
  openTs : Int := 0
  logs : Fields := fun _ => 0

/-- A datagram: address, port, data. -/
structure Datagram where
  ip : Nat
  port : Nat
  data : List Char
deriving DecidableEq, Repr

/-- Everything the devices of a channel write to. -/
structure OutSt where
  fs : Fs
  dev : Nat → DevSt
  /-- the calls of `printf` -/
  screen : List (List Char)
  /-- the calls of `sendto` -/
  net : List Datagram

/-- Replace the state of a device. -/
def OutSt.setDev (o : OutSt) (k : Nat) (d : DevSt) : OutSt :=
  { o with dev := fun j => if j = k then d else o.dev j }

/-- `PRIORITY_RENDER[priority].scolor_` (fn_fmt.h 27-36). -/
def screenColor (priority : Nat) : Option (List Char) :=
  ["\x1b[0m", "\x1b[0m", "\x1b[34m\x1b[1m", "\x1b[33m", "\x1b[31m", "\x1b[32m", "\x1b[35m"][priority]?.map String.toList

/-- What `printf` writes to the screen (fn_out_screen_device.h 28-38). -/
def screenText (log : DevLog) : Option (List Char) :=
  if log.priority < PRIORITY_INFO then some log.cstr
  else
    let priority := if log.priority ≥ PRIORITY_MAX then PRIORITY_ALARM else log.priority
    (screenColor priority.toNat).map fun color => color ++ log.cstr ++ "\x1b[0m".toList

/-- EnterProcOutScreenDevice (fn_out_screen_device.h 18-60). -/
def screenDevice (k : Nat) (log : DevLog) (o : OutSt) : Option OutSt := do
  let logs ← accountDevice (o.dev k).logs log.priority log.text.length
  let text ← screenText log
  return { o.setDev k { o.dev k with logs := logs } with screen := o.screen ++ [text] }

/-- EnterProcOutEmptyDevice (fn_out_empty_device.h 19-25). -/
def emptyDevice (k : Nat) (log : DevLog) (o : OutSt) : Option OutSt := do
  let logs ← accountDevice (o.dev k).logs log.priority log.text.length
  return o.setDev k { o.dev k with logs := logs }

/-- `UDPHandler::open` (fn_file.h 453-486): at most once in 3 seconds. -/
def openSock (os : Os) (d : DevSt) : DevSt :=
  if os.now ≤ d.openTs + 2 then d else { d with openTs := os.now, sock := os.socket }

/-- `AtomicIncDeviceLog(channel, device_id, DEVICE_LOG_TOTAL_LOSE_LINE, 1)`. -/
def loseLine (logs : Fields) : Fields := logs.put DEVICE_LOG_TOTAL_LOSE_LINE (logs DEVICE_LOG_TOTAL_LOSE_LINE + 1)

/-- EnterProcOutUDPDevice (fn_out_udp_device.h 18-45). -/
def udpDevice (k : Nat) (d : Device) (os : Os) (log : DevLog) (o : OutSt) : Option OutSt :=
  let s := if (o.dev k).sock then o.dev k else openSock os (o.dev k)
  if s.sock = false then some (o.setDev k { s with logs := loseLine s.logs })
  else
    let gram : Datagram := ⟨(d.cfg.udpIp % 2 ^ 32).toNat, (d.cfg.udpPort % 2 ^ 16).toNat, log.text⟩
    let logs := if os.sent ≤ 0 then loseLine s.logs else s.logs
    do
      let logs ← accountDevice logs log.priority log.text.length
      return { o.setDev k { s with logs := logs } with net := o.net ++ [gram] }

/-- The file device of the channel: EnterProcOutFileDevice on the part of the state it uses. -/
def fileOut (E : FileEnv) (channelId : Int) (k : Nat) (d : Device) (os : Os) (log : DevLog) (o : OutSt) : Option OutSt :=
  (fileDevice E channelId d ⟨log.ts, log.priority, log.text, os.opens, os.short⟩ ⟨o.fs, (o.dev k).handle, (o.dev k).logs⟩).map
    fun s => { o.setDev k { o.dev k with handle := s.handle, logs := s.logs } with fs := s.fs }

/-- EnterProcDevice (fn_channel.h 23-50). -/
def enterProcDevice (E : FileEnv) (channelId : Int) (k : Nat) (d : Device) (os : Os) (log : DevLog) (o : OutSt) :
    Option OutSt :=
  match d.outType with
  | .screen => screenDevice k log o
  | .file => fileOut E channelId k d os log o
  | .udp => udpDevice k d os log o
  | .virtual => some o
  | .empty => emptyDevice k log o
  | .null => some o

/-- DispatchLog (fn_channel.h 53-95) from device `k` on. -/
def dispatchOut (E : FileEnv) (channelId : Int) (os : Nat → Os) (log : DevLog) (category identify : Int) :
    Nat → List Device → OutSt → Option OutSt
  | _, [], o => some o
  | k, d :: ds, o => do
    if ← dispatchTakes d log.priority category identify then
      let o ← enterProcDevice E channelId k d (os k) log o
      dispatchOut E channelId os log category identify (k + 1) ds o
    else dispatchOut E channelId os log category identify (k + 1) ds o

/-! ## UDP input -/

/-- `udp_buffer_`: `content_` (`LOG_SIZE` bytes) and `content_len_`. -/
structure UdpBuf where
  content : List Char
  len : Nat

/-- The bytes before the first NUL; `none` if there is none in the array. -/
def cString (content : List Char) : Option (List Char) :=
  if '\x00' ∈ content then some (content.takeWhile (· ≠ '\x00')) else none

/-- Lines 243-247 of fn_channel.h: the end of a datagram that fills the buffer. -/
def endUdp (N : Nat) (c : List Char) (n : Nat) : Option UdpBuf :=
  if n = N then do
    let c ← writeAt c (N - 2) ['\n']
    let c ← writeAt c (N - 1) ['\x00']
    some ⟨c, n⟩
  else some ⟨c, n⟩

/-- Lines 241-247 of fn_channel.h: InitLogData, then `recvfrom` of at most `LOG_SIZE` bytes of the datagram. -/
def readUdp (N : Nat) (gram : List Char) (b : UdpBuf) : Option UdpBuf := do
  let c ← writeAt b.content 0 ['\x00']
  let c ← writeAt c 0 (gram.take N)
  endUdp N c (gram.take N).length

/-- Line 253 of fn_channel.h. -/
def handleUdp (E : FileEnv) (channelId : Int) (k : Nat) (d : Device) (ts : Int) (os : Os) (b : UdpBuf) (o : OutSt) :
    Option OutSt := do
  let cstr ← cString b.content
  enterProcDevice E channelId k d os ⟨ts, PRIORITY_INFO, b.content.take b.len, cstr⟩ o

/-- Lines 239-254 of fn_channel.h for the datagrams that are waiting (at most 1000): none of the filters of the device is
asked.  An empty datagram ends the loop like the end of the input.  The time of a log is that of its reception. -/
def udpInput (E : FileEnv) (channelId : Int) (N : Nat) (k : Nat) (d : Device) :
    List (List Char × Int × Os) → UdpBuf × OutSt → Option (UdpBuf × OutSt)
  | [], s => some s
  | (gram, ts, os) :: rest, (b, o) => do
    let b ← readUdp N gram b
    if b.len = 0 then some (b, o)
    else do
      let o ← handleUdp E channelId k d ts os b o
      udpInput E channelId N k d rest (b, o)

end FNLog
