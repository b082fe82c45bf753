import Verif.Model.Machine
import Verif.Model.Options

/-!
# Options applied to a swapper that is in use

An `Option` is a function on swappers (pluginManagerSwapper.go:240): the host can apply one at any time, for example `WithWhitelist("a")(swapper)`. In the same way the slice given to `WithWhitelist` and the map
given to `WithStaticPlugins` are not copied (pluginManagerSwapper.go:273, 280): changing them has the effect of the option with the changed argument.

The settings are read by the calls that hold the lock, by `ReloadWithCallback` and `StaticLinkingMode`, and by the delayed-free goroutines: such a goroutine reads the free delay when it starts running, not when it is
created, and it reads it twice.
-/

namespace Hotswap

variable [GoRuntime]

/-- What a delayed-free goroutine has done so far (pluginManagerSwapper.go:155-160): nothing; it has seen that the free delay is more than 15 seconds; it sleeps or has slept. -/
inductive Nap where
  | fresh
  | long
  | asleep
  deriving DecidableEq, Repr

/-- A swapper, its settings, and for each delayed-free goroutine (in the order of `Machine.frees`) how far it has come. -/
structure OMachine where
  set : Settings
  m : Machine
  naps : List Nap

/-- The labels of the steps. -/
inductive OLabel where
  | go (l : Label)
  /-- the host applies an option -/
  | opt (o : Opt)
  /-- `minFreeDelay < sw.opts.freeDelay` (pluginManagerSwapper.go:157) in free goroutine number `n` -/
  | look (n : Nat)
  /-- `delay = sw.opts.freeDelay` (pluginManagerSwapper.go:158) in free goroutine number `n` -/
  | take (n : Nat)

/-- A free goroutine releases plugins only after it has slept (pluginManagerSwapper.go:160-161). -/
def OMachine.awake (s : OMachine) : Label → Bool
  | .free n => s.naps[n]? == some .asleep
  | _ => true

/-- `time.Sleep(d)` (pluginManagerSwapper.go:160) begins: the goroutine goes on at time `now + d`. -/
def Machine.nap (m : Machine) (n : Nat) (d : Nat) : Machine :=
  match m.frees[n]? with
  | none => m
  | some t => { m with frees := m.frees.set n { t with due := m.now + d } }

/-- One step.

* `go l`: a step of the program with the settings in force. The call that runs uses the settings in force when it began, because options are not applied while it runs. A free goroutine is created in the state `fresh`
  (that `Machine.perform` already computes a due time plays no part), and goes on only after it has slept.
* `opt o`: pluginManagerSwapper.go:242-282, see `Opt.apply`. Simplification: the host does not apply options while a call holds the lock (doing so is a data race with the call).
* `look n`, `take n`: pluginManagerSwapper.go:156-160. They are not synchronised with anything. A negative delay is like 0 (`time.Sleep`). -/
def OMachine.step (s : OMachine) : OLabel → Option OMachine
  | .go l =>
    if s.awake l then
      match s.m.step s.set.config l with
      | none => none
      | some m' => some { s with m := m', naps := s.naps ++ List.replicate (m'.frees.length - s.naps.length) .fresh }
    else none
  | .opt o => if s.m.running.isSome then none else some { s with set := o.apply s.set }
  | .look n =>
    if s.naps[n]? = some .fresh then
      if 15000000000 < s.set.freeDelay then some { s with naps := s.naps.set n .long }
      else some { s with m := s.m.nap n 15000000000, naps := s.naps.set n .asleep }
    else none
  | .take n =>
    if s.naps[n]? = some .long then some { s with m := s.m.nap n s.set.freeDelay.toNat, naps := s.naps.set n .asleep }
    else none

end Hotswap
