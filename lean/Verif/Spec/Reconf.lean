import Verif.Model.Reconf
import Verif.Spec.Trace

/-!
# Histories in which options are applied to the swapper
-/

namespace Hotswap

variable [GoRuntime]

/-- The names of the statically linked plugins are distinct up to case (what else happens is C82). -/
def Opt.Proper : Opt → Prop
  | .withStaticPlugins (some sps) => (sps.vals.map (fun sp => name2key sp.name)).Nodup
  | _ => True

/-- The next step of the call that holds the lock is to make its manager current. -/
def Machine.aboutToPublish (m : Machine) : Prop := ∃ r pm rest, m.running = some r ∧ r.phase = .idle ∧ r.todo = .publish pm :: rest

open Classical in
/-- What a step loses: the plugins of the manager that is superseded by a load under static linking. -/
noncomputable def OMachine.loses (s : OMachine) : OLabel → List Nat
  | .go .act => if s.set.static.isSome ∧ s.m.aboutToPublish then s.m.currentInsts else []
  | _ => []

/-- The states of a swapper: made with some options, then used, with more options applied in between. `os` are all options so far in the order in which they were applied, `L` the instances lost so far. The
condition `ok` may restrict which options are applied, and when. -/
inductive OReachable (ok : OMachine → Opt → Prop) : List Opt → List Nat → OMachine → Prop
  | init (os : List Opt) (h : ∀ o ∈ os, o.Proper) : OReachable ok os [] ⟨newSwapper os, Machine.init, []⟩
  | go {os : List Opt} {L : List Nat} {s s' : OMachine} (l : OLabel) : OReachable ok os L s → (∀ o, l ≠ .opt o) → s.step l = some s' → OReachable ok os (s.loses l ++ L) s'
  | opt {os : List Opt} {L : List Nat} {s s' : OMachine} (o : Opt) : OReachable ok os L s → o.Proper → ok s o → s.step (.opt o) = some s' → OReachable ok (os ++ [o]) L s'

/-- Options may be applied whenever no call holds the lock. -/
abbrev anyTime : OMachine → Opt → Prop := fun _ _ => True

/-- A free delay of less than 15 seconds is not set while a free goroutine is between the two reads. -/
def notBetween : OMachine → Opt → Prop := fun s o => ∀ d, o = .withFreeDelay d → d < 15000000000 → Nap.long ∉ s.naps

/-- `s'` is reached from `s` in some number of steps. -/
inductive OLater (s : OMachine) : OMachine → Prop
  | refl : OLater s s
  | step {s' s'' : OMachine} (l : OLabel) : OLater s s' → (∀ o, l = .opt o → o.Proper) → s'.step l = some s'' → OLater s s''

/-- The delayed frees so far: when each was ordered, and of which manager. -/
def spawns (tr : History) : List (Nat × Manager) := tr.filterMap (fun e => match e.2 with | .act (.spawnFree om) => some (e.1, om) | _ => none)

end Hotswap
