import Verif.Spec.Goexit
import Verif.Spec.ErrTrue

/-! What a panic with a value that cannot be printed does to a call. -/

namespace Hotswap

variable [GoRuntime]

/-- The error says that one of `Reloadable`, `Export`, `Import`, `OnLoad`, `OnInit` has panicked. -/
inductive HookPanicked : Err → Prop
  | late (n : Str) : HookPanicked (.hookPanic n)
  | loading (n m : Str) : HookPanicked (.loading n (.hookPanic m))

/-- The error says that the initialisation of a plugin, `HotswapLiveFuncs` or `HotswapLiveTypes` has panicked. -/
inductive DirectPanicked : Err → Prop
  | mk (c : Option Str) : DirectPanicked (.panicked c .user)

/-- The first callback that does not return nil panics. -/
def CallbackPanics (cbs : List (Nat × Outcome)) : Prop :=
  ∃ done n rest, cbs = done ++ (n, Outcome.panics) :: rest ∧ ∀ c ∈ done, c.2 = .ok

/-- The panic escapes from the call `q`, which is the call `p` up to that moment: `p` then returns an error and releases everything, `q` releases nothing. -/
structure Escapes (p q : Plan) : Prop where
  res : q.res = .panic .user
  wouldFail : ∃ e, p.res = .err e
  /-- all that is missing is the cleanup -/
  cleanup : ∃ rel, p.acts = q.acts ++ rel.map Act.release ∧ (acquired q.acts).Perm rel ∧ rel.Nodup
  /-- the code that panics is the last thing that has been called -/
  culprit : ∃ pre a, q.acts = pre ++ [a] ∧ RunsFunc a
  noRelease : ∀ i, Act.release i ∉ q.acts
  unpublished : publishes q.acts = []
  noFree : ∀ om, Act.spawnFree om ∉ q.acts
  uncounted : Act.count ∉ q.acts
  next : q.next = p.next
  built : q.built = p.built

end Hotswap
