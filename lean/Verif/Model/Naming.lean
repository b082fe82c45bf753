import Verif.Model.Api

/-!
# Time stamps in names: the directory of the run-time copies (pluginManager.go:39-40)
-/

namespace Hotswap

/-- A calendar date and time of day, as `time.Time` shows them in some time zone. -/
structure Civil where
  year : Nat
  month : Nat
  day : Nat
  hour : Nat
  min : Nat
  sec : Nat
  deriving DecidableEq, Repr

/-- The ranges of a calendar date and a time of day (Go has no leap seconds). -/
structure Civil.Valid (t : Civil) : Prop where
  month : 1 ≤ t.month ∧ t.month ≤ 12
  day : 1 ≤ t.day ∧ t.day ≤ 31
  hour : t.hour < 24
  min : t.min < 60
  sec : t.sec < 60

/-- The character of a decimal digit. -/
def decDigit (d : Nat) : Char := "0123456789".toList.getD d '?'

/-- Two decimal digits, as the layouts `01`, `02`, `15`, `04`, `05`, `06` print them. -/
def pad2 (n : Nat) : Str := [decDigit (n / 10 % 10), decDigit (n % 10)]

/-- `%d` of a non-negative integer. -/
def decDigits (n : Nat) : Str := if n < 10 then [decDigit n] else decDigits (n / 10) ++ [decDigit (n % 10)]

/-- `t.Format(hutils.CompactDateTimeFormat)`, layout `060102150405` (internal/hutils/hutils.go:20-22): year (two digits), month, day, hour, minute, second. -/
def formatCompact (t : Civil) : Str :=
  pad2 (t.year % 100) ++ pad2 t.month ++ pad2 t.day ++ pad2 t.hour ++ pad2 t.min ++ pad2 t.sec

/-- pluginManager.go:39-40: the name of the directory for the copies made by one manager; `now` is the local time of its creation. -/
def copyDirName (now : Civil) (pid : Nat) : Str := formatCompact now ++ '-' :: decDigits pid

/-- pluginManager.go:39-40, 162-171: where the manager created at `now` by process `pid` puts the copy of `file`. -/
def runtimeCopy (now : Civil) (pid : Nat) (file : Str) (sum : Nat) : Str := copyPath (copyDirName now pid) file (pluginName file) sum

end Hotswap
