import Verif.Model.Statement

/-!
# The logging macros

Transcribed from `fn_macro.h` 119-238: the four families of macros (streams, packs, macros with the text as argument,
printf-style), each with seven priorities and two forms, with `LogTemplatePack` (157-167) and `LOG_FORMAT` (208-222), and
the move constructor of `LogStream` (fn_stream.h 76-84).

Simplifications: the logger of `GetDefaultLogger()` is the one of the `Setup`; the text argument of the macros 188-202 is
a chain `v << … << w` (substituted behind `… <<`, it is a longer chain); the values of the arguments are
computed beforehand; the printf-style format is represented by the text it produces.
-/

namespace FNLog

/-- Where and when a statement is executed: `__FILE__`, `__LINE__`, `__FUNCTION__`, the clock, the thread id, and the old
content of the slot. -/
structure Site where
  file : List Char
  line : Int
  func : List Char
  ts : Int
  precise : Nat
  thread : Nat
  junk : List Char

/-! ## Constants (fn_data.h 97-108; the priorities are in Verif/Model/Types.lean) -/


/-- fn_data.h 99 -/
def LOG_PREFIX_TIMESTAMP : Nat := 0x1
/-- fn_data.h 100 -/
def LOG_PREFIX_PRIORITY : Nat := 0x2
/-- fn_data.h 104 -/
def LOG_PREFIX_FILE : Nat := 0x20
/-- fn_data.h 105 -/
def LOG_PREFIX_FUNCTION : Nat := 0x40
/-- fn_data.h 108 -/
def LOG_PREFIX_DEFAULT : Nat := LOG_PREFIX_TIMESTAMP ||| LOG_PREFIX_PRIORITY ||| LOG_PREFIX_FILE ||| LOG_PREFIX_FUNCTION

/-! ## Base macros -/

/-- LOG_STREAM_ORIGIN (fn_macro.h 122-125): the arguments of the constructor; `__FILE__` and `__FUNCTION__` are string
literals, their lengths are those of the texts. -/
def LOG_STREAM_ORIGIN (channel priority category identify : Int) (pfx : Nat) (w : Site) : Call :=
  ⟨channel, priority, category, identify, some w.file, w.line, some w.func, pfx, w.ts, w.precise, w.thread, w.junk⟩

/-- LOG_STREAM_DEFAULT_LOGGER_WITH_PREFIX (fn_macro.h 134-135 with 131-132 and 128-129). -/
def LOG_STREAM_DEFAULT (channel priority category identify : Int) (w : Site) : Call :=
  LOG_STREAM_ORIGIN channel priority category identify LOG_PREFIX_DEFAULT w

/-! ## Streams (fn_macro.h 139-153) -/

/-- fn_macro.h 139 -/
def LogTraceStream (channelId category identify : Int) (w : Site) : Call :=
  LOG_STREAM_DEFAULT channelId PRIORITY_TRACE category identify w
/-- fn_macro.h 140 -/
def LogDebugStream (channelId category identify : Int) (w : Site) : Call :=
  LOG_STREAM_DEFAULT channelId PRIORITY_DEBUG category identify w
/-- fn_macro.h 141 -/
def LogInfoStream (channelId category identify : Int) (w : Site) : Call :=
  LOG_STREAM_DEFAULT channelId PRIORITY_INFO category identify w
/-- fn_macro.h 142 -/
def LogWarnStream (channelId category identify : Int) (w : Site) : Call :=
  LOG_STREAM_DEFAULT channelId PRIORITY_WARN category identify w
/-- fn_macro.h 143 -/
def LogErrorStream (channelId category identify : Int) (w : Site) : Call :=
  LOG_STREAM_DEFAULT channelId PRIORITY_ERROR category identify w
/-- fn_macro.h 144 -/
def LogAlarmStream (channelId category identify : Int) (w : Site) : Call :=
  LOG_STREAM_DEFAULT channelId PRIORITY_ALARM category identify w
/-- fn_macro.h 145 -/
def LogFatalStream (channelId category identify : Int) (w : Site) : Call :=
  LOG_STREAM_DEFAULT channelId PRIORITY_FATAL category identify w
/-- fn_macro.h 147 -/
def LogTrace (w : Site) : Call := LogTraceStream 0 0 0 w
/-- fn_macro.h 148 -/
def LogDebug (w : Site) : Call := LogDebugStream 0 0 0 w
/-- fn_macro.h 149 -/
def LogInfo (w : Site) : Call := LogInfoStream 0 0 0 w
/-- fn_macro.h 150 -/
def LogWarn (w : Site) : Call := LogWarnStream 0 0 0 w
/-- fn_macro.h 151 -/
def LogError (w : Site) : Call := LogErrorStream 0 0 0 w
/-- fn_macro.h 152 -/
def LogAlarm (w : Site) : Call := LogAlarmStream 0 0 0 w
/-- fn_macro.h 153 -/
def LogFatal (w : Site) : Call := LogFatalStream 0 0 0 w

/-! ## Packs (fn_macro.h 157-183) -/

/-- LogTemplatePack (fn_macro.h 157-167): the initialisers of an array are evaluated from left to right. -/
def LogTemplatePack (E : Env) : Stmt → List Val → Option Stmt
  | ls, [] => some ls
  | ls, v :: vs => do
    let ls ← operate E ls (.put v)
    LogTemplatePack E ls vs

/-- A statement `LogTemplatePack(LogStream(…).self(), args…)`: the temporary lives until the end of it. -/
def packStatement (S : Setup) (a : Call) (args : List Val) (s : Sys) : Option Sys := do
  let t ← construct S.env S.names S.lg a s.cache
  let t ← LogTemplatePack S.env t args
  destruct S t s

/-- fn_macro.h 169 -/
def LogTracePack (channelId category identify : Int) (w : Site) : Call :=
  LOG_STREAM_DEFAULT channelId PRIORITY_TRACE category identify w
/-- fn_macro.h 170 -/
def LogDebugPack (channelId category identify : Int) (w : Site) : Call :=
  LOG_STREAM_DEFAULT channelId PRIORITY_DEBUG category identify w
/-- fn_macro.h 171 -/
def LogInfoPack (channelId category identify : Int) (w : Site) : Call :=
  LOG_STREAM_DEFAULT channelId PRIORITY_INFO category identify w
/-- fn_macro.h 172 -/
def LogWarnPack (channelId category identify : Int) (w : Site) : Call :=
  LOG_STREAM_DEFAULT channelId PRIORITY_WARN category identify w
/-- fn_macro.h 173 -/
def LogErrorPack (channelId category identify : Int) (w : Site) : Call :=
  LOG_STREAM_DEFAULT channelId PRIORITY_ERROR category identify w
/-- fn_macro.h 174 -/
def LogAlarmPack (channelId category identify : Int) (w : Site) : Call :=
  LOG_STREAM_DEFAULT channelId PRIORITY_ALARM category identify w
/-- fn_macro.h 175 -/
def LogFatalPack (channelId category identify : Int) (w : Site) : Call :=
  LOG_STREAM_DEFAULT channelId PRIORITY_FATAL category identify w
/-- fn_macro.h 177 -/
def PackTrace (w : Site) : Call := LogTracePack 0 0 0 w
/-- fn_macro.h 178 -/
def PackDebug (w : Site) : Call := LogDebugPack 0 0 0 w
/-- fn_macro.h 179 -/
def PackInfo (w : Site) : Call := LogInfoPack 0 0 0 w
/-- fn_macro.h 180 -/
def PackWarn (w : Site) : Call := LogWarnPack 0 0 0 w
/-- fn_macro.h 181 -/
def PackError (w : Site) : Call := LogErrorPack 0 0 0 w
/-- fn_macro.h 182 -/
def PackAlarm (w : Site) : Call := LogAlarmPack 0 0 0 w
/-- fn_macro.h 183 -/
def PackFatal (w : Site) : Call := LogFatalPack 0 0 0 w

/-! ## Text as argument (fn_macro.h 188-202) -/

/-- fn_macro.h 188 -/
def LOG_TRACE (channelId category identify : Int) (w : Site) : Call :=
  LOG_STREAM_DEFAULT channelId PRIORITY_TRACE category identify w
/-- fn_macro.h 189 -/
def LOG_DEBUG (channelId category identify : Int) (w : Site) : Call :=
  LOG_STREAM_DEFAULT channelId PRIORITY_DEBUG category identify w
/-- fn_macro.h 190 -/
def LOG_INFO (channelId category identify : Int) (w : Site) : Call :=
  LOG_STREAM_DEFAULT channelId PRIORITY_INFO category identify w
/-- fn_macro.h 191 -/
def LOG_WARN (channelId category identify : Int) (w : Site) : Call :=
  LOG_STREAM_DEFAULT channelId PRIORITY_WARN category identify w
/-- fn_macro.h 192 -/
def LOG_ERROR (channelId category identify : Int) (w : Site) : Call :=
  LOG_STREAM_DEFAULT channelId PRIORITY_ERROR category identify w
/-- fn_macro.h 193 -/
def LOG_ALARM (channelId category identify : Int) (w : Site) : Call :=
  LOG_STREAM_DEFAULT channelId PRIORITY_ALARM category identify w
/-- fn_macro.h 194 -/
def LOG_FATAL (channelId category identify : Int) (w : Site) : Call :=
  LOG_STREAM_DEFAULT channelId PRIORITY_FATAL category identify w
/-- fn_macro.h 196 -/
def LOGT (w : Site) : Call := LOG_TRACE 0 0 0 w
/-- fn_macro.h 197 -/
def LOGD (w : Site) : Call := LOG_DEBUG 0 0 0 w
/-- fn_macro.h 198 -/
def LOGI (w : Site) : Call := LOG_INFO 0 0 0 w
/-- fn_macro.h 199 -/
def LOGW (w : Site) : Call := LOG_WARN 0 0 0 w
/-- fn_macro.h 200 -/
def LOGE (w : Site) : Call := LOG_ERROR 0 0 0 w
/-- fn_macro.h 201 -/
def LOGA (w : Site) : Call := LOG_ALARM 0 0 0 w
/-- fn_macro.h 202 -/
def LOGF (w : Site) : Call := LOG_FATAL 0 0 0 w

/-- A statement `stream << log` with the chain `log`. -/
def chainStatement (S : Setup) (a : Call) (log : List Val) (s : Sys) : Option Sys :=
  statement S a (log.map .put) s

/-! ## printf-style (fn_macro.h 208-238) -/

/-- The move constructor (fn_stream.h 76-84): the new object and what is left of the other. -/
def moveStream (t : Stmt) : Stmt × Stmt := (t, ⟨none, ⟨none, t.strm.cache⟩⟩)

/-- Lines 215-221 of fn_macro.h. -/
def formatStmt (N : Nat) (t : Stmt) (res : Option (List Char)) : Option Stmt :=
  match t.strm.data with
  | none => some t
  | some r => do
    let r ← formatRec N r res
    some { t with strm := { t.strm with data := some r } }

/-- LOG_FORMAT (fn_macro.h 208-222): `res` is the text of the format, `none` if it cannot be produced. -/
def LOG_FORMAT (S : Setup) (a : Call) (res : Option (List Char)) (s : Sys) : Option Sys := do
  let blocked ← blockInput S.lg a.channelId a.priority a.category a.identify
  if blocked then some s
  else do
    let tmp ← construct S.env S.names S.lg a s.cache
    let (t, rest) := moveStream tmp
    -- the end of the temporary
    let s ← destruct S rest s
    let t ← formatStmt S.env.N t res
    destruct S t s

/-- fn_macro.h 225 -/
def LOGFMT_TRACE (channelId category identify : Int) (w : Site) : Call :=
  LOG_STREAM_ORIGIN channelId PRIORITY_TRACE category identify LOG_PREFIX_DEFAULT w
/-- fn_macro.h 226 -/
def LOGFMT_DEBUG (channelId category identify : Int) (w : Site) : Call :=
  LOG_STREAM_ORIGIN channelId PRIORITY_DEBUG category identify LOG_PREFIX_DEFAULT w
/-- fn_macro.h 227 -/
def LOGFMT_INFO (channelId category identify : Int) (w : Site) : Call :=
  LOG_STREAM_ORIGIN channelId PRIORITY_INFO category identify LOG_PREFIX_DEFAULT w
/-- fn_macro.h 228 -/
def LOGFMT_WARN (channelId category identify : Int) (w : Site) : Call :=
  LOG_STREAM_ORIGIN channelId PRIORITY_WARN category identify LOG_PREFIX_DEFAULT w
/-- fn_macro.h 229 -/
def LOGFMT_ERROR (channelId category identify : Int) (w : Site) : Call :=
  LOG_STREAM_ORIGIN channelId PRIORITY_ERROR category identify LOG_PREFIX_DEFAULT w
/-- fn_macro.h 230 -/
def LOGFMT_ALARM (channelId category identify : Int) (w : Site) : Call :=
  LOG_STREAM_ORIGIN channelId PRIORITY_ALARM category identify LOG_PREFIX_DEFAULT w
/-- fn_macro.h 231 -/
def LOGFMT_FATAL (channelId category identify : Int) (w : Site) : Call :=
  LOG_STREAM_ORIGIN channelId PRIORITY_FATAL category identify LOG_PREFIX_DEFAULT w
/-- fn_macro.h 232 -/
def LOGFMTT (w : Site) : Call := LOGFMT_TRACE 0 0 0 w
/-- fn_macro.h 233 -/
def LOGFMTD (w : Site) : Call := LOGFMT_DEBUG 0 0 0 w
/-- fn_macro.h 234 -/
def LOGFMTI (w : Site) : Call := LOGFMT_INFO 0 0 0 w
/-- fn_macro.h 235 -/
def LOGFMTW (w : Site) : Call := LOGFMT_WARN 0 0 0 w
/-- fn_macro.h 236 -/
def LOGFMTE (w : Site) : Call := LOGFMT_ERROR 0 0 0 w
/-- fn_macro.h 237 -/
def LOGFMTA (w : Site) : Call := LOGFMT_ALARM 0 0 0 w
/-- fn_macro.h 238 -/
def LOGFMTF (w : Site) : Call := LOGFMT_FATAL 0 0 0 w

/-! ## All of them -/

/-- How the rest of a macro is used. -/
inductive Style where
  | stream | pack | chain | format
deriving DecidableEq, Repr

/-- A macro: its name, its style, whether channel, category and identify are arguments, and the statement it makes. -/
structure Macro where
  name : String
  style : Style
  full : Bool
  call : Int → Int → Int → Site → Call

/-- fn_macro.h 139-145 -/
def streamMacros : List Macro :=
  [⟨"LogTraceStream", .stream, true, LogTraceStream⟩,
   ⟨"LogDebugStream", .stream, true, LogDebugStream⟩,
   ⟨"LogInfoStream", .stream, true, LogInfoStream⟩,
   ⟨"LogWarnStream", .stream, true, LogWarnStream⟩,
   ⟨"LogErrorStream", .stream, true, LogErrorStream⟩,
   ⟨"LogAlarmStream", .stream, true, LogAlarmStream⟩,
   ⟨"LogFatalStream", .stream, true, LogFatalStream⟩]

/-- fn_macro.h 147-153 -/
def streamShorts : List Macro :=
  [⟨"LogTrace", .stream, false, fun _ _ _ => LogTrace⟩,
   ⟨"LogDebug", .stream, false, fun _ _ _ => LogDebug⟩,
   ⟨"LogInfo", .stream, false, fun _ _ _ => LogInfo⟩,
   ⟨"LogWarn", .stream, false, fun _ _ _ => LogWarn⟩,
   ⟨"LogError", .stream, false, fun _ _ _ => LogError⟩,
   ⟨"LogAlarm", .stream, false, fun _ _ _ => LogAlarm⟩,
   ⟨"LogFatal", .stream, false, fun _ _ _ => LogFatal⟩]

/-- fn_macro.h 169-175 -/
def packMacros : List Macro :=
  [⟨"LogTracePack", .pack, true, LogTracePack⟩,
   ⟨"LogDebugPack", .pack, true, LogDebugPack⟩,
   ⟨"LogInfoPack", .pack, true, LogInfoPack⟩,
   ⟨"LogWarnPack", .pack, true, LogWarnPack⟩,
   ⟨"LogErrorPack", .pack, true, LogErrorPack⟩,
   ⟨"LogAlarmPack", .pack, true, LogAlarmPack⟩,
   ⟨"LogFatalPack", .pack, true, LogFatalPack⟩]

/-- fn_macro.h 177-183 -/
def packShorts : List Macro :=
  [⟨"PackTrace", .pack, false, fun _ _ _ => PackTrace⟩,
   ⟨"PackDebug", .pack, false, fun _ _ _ => PackDebug⟩,
   ⟨"PackInfo", .pack, false, fun _ _ _ => PackInfo⟩,
   ⟨"PackWarn", .pack, false, fun _ _ _ => PackWarn⟩,
   ⟨"PackError", .pack, false, fun _ _ _ => PackError⟩,
   ⟨"PackAlarm", .pack, false, fun _ _ _ => PackAlarm⟩,
   ⟨"PackFatal", .pack, false, fun _ _ _ => PackFatal⟩]

/-- fn_macro.h 188-194 -/
def chainMacros : List Macro :=
  [⟨"LOG_TRACE", .chain, true, LOG_TRACE⟩,
   ⟨"LOG_DEBUG", .chain, true, LOG_DEBUG⟩,
   ⟨"LOG_INFO", .chain, true, LOG_INFO⟩,
   ⟨"LOG_WARN", .chain, true, LOG_WARN⟩,
   ⟨"LOG_ERROR", .chain, true, LOG_ERROR⟩,
   ⟨"LOG_ALARM", .chain, true, LOG_ALARM⟩,
   ⟨"LOG_FATAL", .chain, true, LOG_FATAL⟩]

/-- fn_macro.h 196-202 -/
def chainShorts : List Macro :=
  [⟨"LOGT", .chain, false, fun _ _ _ => LOGT⟩,
   ⟨"LOGD", .chain, false, fun _ _ _ => LOGD⟩,
   ⟨"LOGI", .chain, false, fun _ _ _ => LOGI⟩,
   ⟨"LOGW", .chain, false, fun _ _ _ => LOGW⟩,
   ⟨"LOGE", .chain, false, fun _ _ _ => LOGE⟩,
   ⟨"LOGA", .chain, false, fun _ _ _ => LOGA⟩,
   ⟨"LOGF", .chain, false, fun _ _ _ => LOGF⟩]

/-- fn_macro.h 225-231 -/
def formatMacros : List Macro :=
  [⟨"LOGFMT_TRACE", .format, true, LOGFMT_TRACE⟩,
   ⟨"LOGFMT_DEBUG", .format, true, LOGFMT_DEBUG⟩,
   ⟨"LOGFMT_INFO", .format, true, LOGFMT_INFO⟩,
   ⟨"LOGFMT_WARN", .format, true, LOGFMT_WARN⟩,
   ⟨"LOGFMT_ERROR", .format, true, LOGFMT_ERROR⟩,
   ⟨"LOGFMT_ALARM", .format, true, LOGFMT_ALARM⟩,
   ⟨"LOGFMT_FATAL", .format, true, LOGFMT_FATAL⟩]

/-- fn_macro.h 232-238 -/
def formatShorts : List Macro :=
  [⟨"LOGFMTT", .format, false, fun _ _ _ => LOGFMTT⟩,
   ⟨"LOGFMTD", .format, false, fun _ _ _ => LOGFMTD⟩,
   ⟨"LOGFMTI", .format, false, fun _ _ _ => LOGFMTI⟩,
   ⟨"LOGFMTW", .format, false, fun _ _ _ => LOGFMTW⟩,
   ⟨"LOGFMTE", .format, false, fun _ _ _ => LOGFMTE⟩,
   ⟨"LOGFMTA", .format, false, fun _ _ _ => LOGFMTA⟩,
   ⟨"LOGFMTF", .format, false, fun _ _ _ => LOGFMTF⟩]

/-- The macros of fn_macro.h 139-238. -/
def macros : List Macro :=
  streamMacros ++ streamShorts ++ packMacros ++ packShorts ++ chainMacros ++ chainShorts ++ formatMacros ++ formatShorts

/-- A statement with a macro.  Streams and chains take values, packs too; printf-style takes the text of the format. -/
def Macro.run (m : Macro) (S : Setup) (channelId category identify : Int) (w : Site) (vals : List Val)
    (text : Option (List Char)) (s : Sys) : Option Sys :=
  match m.style with
  | .stream => statement S (m.call channelId category identify w) (vals.map .put) s
  | .pack => packStatement S (m.call channelId category identify w) vals s
  | .chain => chainStatement S (m.call channelId category identify w) vals s
  | .format => LOG_FORMAT S (m.call channelId category identify w) text s

end FNLog
