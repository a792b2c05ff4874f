import Verif.Model.File

/-!
# The beginning of the day and of the hour of a file

fn_out_file_device.h 251-262, with the C library's local time of `Model/Fmt`.  `mktime` normalises its argument: afterwards
this is the local time of its result, with the `tm_isdst` of that time.
-/

namespace FNLog

/-- Lines 253, 256-259: `create_hour`. -/
def Zone.createHour (z : Zone) (ts : Int) : Int :=
  let t := z.localtime ts
  z.mktime { t with min := 0, sec := 0 } (z.isdst ts)

/-- Lines 260-261: `create_day`, from `day` as the first `mktime` left it. -/
def Zone.createDay (z : Zone) (ts : Int) : Int :=
  let h := z.createHour ts
  let day := z.localtime h
  z.mktime { day with hour := 0 } (z.isdst h)

/-- A process in a time zone. -/
def zoneEnv (z : Zone) (proc : Proc) (fuel : Nat) : FileEnv where
  proc := proc
  tm := z.localtime
  createHour := z.createHour
  createDay := z.createDay
  fuel := fuel

end FNLog
