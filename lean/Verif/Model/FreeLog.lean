import Verif.Model.Load

/-!
# What `invokeEveryOnFree` writes to the log

`invokeEveryOnFree` calls `Debugf` before each `OnFree` and `Errorf` if something has panicked. Both are methods of the user's logger and may panic. A panic of `Debugf` is recovered by the handler of the plugin, a panic of `Errorf`, which is called by that
handler, is not. (In the other models the release of a plugin is one action and the logger does not panic here. Simplification: the value of a panic can be printed, see Model/Unprintable.)
-/

namespace Hotswap

variable [GoRuntime]

/-- A line of the log of `invokeEveryOnFree`. -/
inductive FreeLine where
  /-- pluginManager.go:495: `invoking %s.OnFree` -/
  | freeing (name : Str)
  /-- pluginManager.go:492: `panic: ...` -/
  | failed (name : Str)
  deriving DecidableEq, Repr

/-- The reference counts (`Refs`), which `freeOnce` have been used, the instances whose `OnFree` has been called, and the lines given to the logger; each line with whether the logger has panicked. -/
structure FreeSt where
  refs : Nat → Int
  used : Nat → Bool
  called : List Nat
  lines : List (FreeLine × Bool)

/-- A logger: given the lines written so far, and a line, does it panic? -/
abbrev FreeLogger := List (FreeLine × Bool) → FreeLine → Bool

namespace FreeLog

/-- A call of a method of the logger: does it panic? -/
def write (lg : FreeLogger) (l : FreeLine) (s : FreeSt) : Bool × FreeSt :=
  let b := lg s.lines l
  (b, { s with lines := s.lines ++ [(l, b)] })

/-- pluginManager.go:496-498: `p.freeOnce.Do(func() { p.fOnFree() })`. Does it panic? (A function that panics counts as done for `sync.Once`.) -/
def onceFree (p : Plugin) (s : FreeSt) : Bool × FreeSt :=
  if s.used p.inst then (false, s)
  else (p.code.onFreePanics, { s with used := fun i => if i = p.inst then true else s.used i, called := s.called ++ [p.inst] })

/-- pluginManager.go:487: `p.Refs.Dec()` -/
def dec (p : Plugin) (s : FreeSt) : FreeSt := { s with refs := fun i => if i = p.inst then s.refs i - 1 else s.refs i }

/-- pluginManager.go:495-498: the line, then `OnFree`. Does it panic? -/
def body (lg : FreeLogger) (p : Plugin) (s : FreeSt) : Bool × FreeSt :=
  match write lg (.freeing p.name) s with
  | (true, s') => (true, s')
  | (false, s') => onceFree p s'

/-- pluginManager.go:486-499 `invokeImpl`. Does a panic leave it? -/
def invokeImpl (lg : FreeLogger) (p : Plugin) (s : FreeSt) : Bool × FreeSt :=
  let s1 := dec p s
  if s1.refs p.inst > 0 then (false, s1)
  else match body lg p s1 with
    | (false, s2) => (false, s2)
    | (true, s2) => write lg (.failed p.name) s2

/-- pluginManager.go:501-510: the loop. Does a panic leave it? -/
def loop (lg : FreeLogger) : List Plugin → FreeSt → Bool × FreeSt
  | [], s => (false, s)
  | p :: r, s =>
    match invokeImpl lg p s with
    | (true, s') => (true, s')
    | (false, s') => loop lg r s'

/-- pluginManager.go:485-511 `invokeEveryOnFree`; the order of the plugins is that of Model/Load. -/
def invokeEveryOnFree (lg : FreeLogger) (it : Iter) (pm : Manager) (s : FreeSt) : Bool × FreeSt := loop lg (freeOrder it pm) s

end FreeLog

end Hotswap
