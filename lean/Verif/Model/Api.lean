import Verif.Model.Load

/-!
# The rest of the run-time API: `InvokeEach`, `InvokeEachBackward`, `Details.String`, the temporary copies
-/

namespace Hotswap

/-- What `InvokeEach`/`InvokeEachBackward` do, in order: calls of `InvokeFunc` of an instance, and log records. -/
inductive InvEv where
  | call (inst : Nat) (name : Str) (params : List Val)
  /-- `pm.Error(err)` with the error that plugin `inst` returned (pluginManager.go:529, 547) -/
  | logErr (inst : Nat)
  /-- `pm.Errorf("<hotswap:%s> panic: ...")` (pluginManager.go:525, 543) -/
  | logPanic (inst : Nat)
  deriving DecidableEq, Repr

/-- How plugin code reacts to `InvokeFunc`: an arbitrary function of everything that has happened so far. -/
abbrev Reaction := List InvEv → Plugin → Str → List Val → Outcome

/-- The closure `invokeImpl`, pluginManager.go:522-531 (and 540-549): call, log an error, recover and log a panic.
`done` is the history so far; the result is the extended history. -/
def invokeImpl (react : Reaction) (name : Str) (params : List Val) (done : List InvEv) (p : Plugin) : List InvEv :=
  let done' := done ++ [.call p.inst name params]
  match react done p name params with
  | .ok => done'
  | .err => done' ++ [.logErr p.inst]
  | .panics => done' ++ [.logPanic p.inst]

/-- pluginManager.go:521-537 `InvokeEach`. -/
def Manager.invokeEach (pm : Manager) (react : Reaction) (name : Str) (params : List Val) (done : List InvEv) : List InvEv :=
  pm.plugins.foldl (invokeImpl react name params) done

/-- The loop of pluginManager.go:552-554: `for i := len(all)-1; i >= 0; i--`, with `n = i + 1`. -/
def backLoop (react : Reaction) (name : Str) (params : List Val) (all : List Plugin) : Nat → List InvEv → List InvEv
  | 0, done => done
  | n + 1, done =>
    match all[n]? with
    | some p => backLoop react name params all n (invokeImpl react name params done p)
    | none => done

/-- pluginManager.go:539-555 `InvokeEachBackward`. -/
def Manager.invokeEachBackward (pm : Manager) (react : Reaction) (name : Str) (params : List Val) (done : List InvEv) : List InvEv :=
  backLoop react name params pm.plugins pm.plugins.length done

/-- The loop of pluginManagerSwapper.go:230-236, from index `i` on. -/
def detailsLoop (d : GoMap Str) : Nat → List Str → Str → Str
  | _, [], buf => buf
  | i, k :: r, buf =>
    let buf := if i > 0 then buf ++ ", ".toList else buf
    let x := Str.trimSuffix (filepathBase k) fileNameExt
    detailsLoop d (i + 1) r (buf ++ (x ++ ": ".toList ++ (d.get? k).getD []))

/-- pluginManagerSwapper.go:222-238 `Details.String`. Keys and values are plain strings here. -/
def detailsString (it : Iter) (d : GoMap Str) : Str :=
  detailsLoop d 0 (sortStrings (d.range it .details)) []

/-- The character of a hexadecimal digit. -/
def hexDigit (d : Nat) : Char := "0123456789abcdef".toList.getD d '?'

/-- Lower-case hexadecimal digits without leading zeros, as `%x` prints them. -/
def hexDigits (n : Nat) : Str := if n < 16 then [hexDigit n] else hexDigits (n / 16) ++ [hexDigit (n % 16)]

/-- `%#8x` of an unsigned integer: `0x`, the digits, padded with spaces on the left to width 8. -/
def sharpHex8 (n : Nat) : Str :=
  let s := '0' :: 'x' :: hexDigits n
  List.replicate (8 - s.length) ' ' ++ s

/-- The file name of the copy, pluginManager.go:169: `fmt.Sprintf("%s-%#8x%s", info.name, sum, ".so")`. -/
def copyName (name : Str) (sum : Nat) : Str := name ++ '-' :: sharpHex8 sum ++ fileNameExt

/-- `filepath.Dir` of a clean absolute path `joinPath dir name`: everything before the last slash, `/` if that is empty.
Used at pluginManager.go:163. -/
def filepathDir (s : Str) : Str :=
  let t := (s.reverse.dropWhile (· != '/')).reverse
  let u := dropTrailingSlashes t
  if u = [] then ['/'] else u

/-- pluginManager.go:162-171 `copyPlugin`: the path of the copy. `dirName` is fixed per manager (pluginManager.go:40),
`sum` is the xxHash32 checksum of the SHA-1 digest. Whether writing succeeds is `FS.copyOk`. -/
def copyPath (dirName : Str) (file : Str) (name : Str) (sum : Nat) : Str :=
  joinPath (joinPath (joinPath (filepathDir file) "tmp".toList) dirName) (copyName name sum)

end Hotswap
