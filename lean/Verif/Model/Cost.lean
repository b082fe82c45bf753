import Verif.Model.Load

/-!
# The cycle check with a counter

The functions of `Model/Load.lean` once more, each call counted. `C76_counts` says that the counter changes nothing.
-/

namespace Hotswap

variable [GoRuntime]

/-- The loop of pluginManager.go:332-338: calls one after the other until a result is not `nil`. Every element is the result of one call of
`checkCyclicDependency` and the number of calls made inside it (itself included). -/
def Chk.firstCounted : List (Chk × Nat) → Chk × Nat
  | [] => (.clean, 0)
  | (.clean, n) :: r => ((Chk.firstCounted r).1, n + (Chk.firstCounted r).2)
  | (c, n) :: _ => (c, n)

/-- pluginManager.go:321-341 `checkCyclicDependency`, with the number of calls of that function: one for itself and those of the loop. `visited` and the fuel are as in `checkCyclic`. -/
def checkCyclicCounted (m : GoMap Plugin) : Nat → Option Plugin → List Str → Chk × Nat
  | 0, _, _ => (.fuel, 1)
  | _ + 1, none, _ => (.nilDeref, 1)
  | n + 1, some p, visited =>
    if visited.contains (name2key p.name) then (.cycle [p.name], 1)
    else
      (((Chk.firstCounted (p.deps.map (fun d => checkCyclicCounted m n (m.get? (name2key d)) (name2key p.name :: visited)))).1.push p.name),
        1 + (Chk.firstCounted (p.deps.map (fun d => checkCyclicCounted m n (m.get? (name2key d)) (name2key p.name :: visited)))).2)

/-- pluginManager.go:293-305: the check of all plugins that have dependencies, in the order `it` of the map, up to the first that fails; with the number of calls of
`checkCyclicDependency`. -/
def checkAllCounted (it : Iter) (m : GoMap Plugin) : Chk × Nat :=
  Chk.firstCounted (((m.rangeKV it .cyclic).filter (fun e => !e.2.deps.isEmpty)).map (fun e => checkCyclicCounted m (cyclicFuel m) (some e.2) []))

/-- pluginManager.go:293-305: what the loop of `checkAllCyclic` does with a result. -/
def Chk.act : Chk → M Unit
  | .clean => M.pure ()
  | .cycle names => M.throw (.cyclic names)
  | .nilDeref => M.panic .nilDeref
  | .fuel => M.panic .orderBroken

end Hotswap
