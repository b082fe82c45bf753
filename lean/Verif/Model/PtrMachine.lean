import Verif.Model.Ptr
import Verif.Model.Machine

/-!
# The concurrent machine with pointers

As `Model/Machine`, but calls are executed by the functions of `Model/Ptr`, on structs in a heap that all goroutines share.
-/

namespace Hotswap
namespace Ptr

variable [GoRuntime]

/-- The machine and the structs. -/
structure World where
  m : Machine
  heap : Heap

/-- A fresh swapper (pluginManagerSwapper.go:55-63) in a program without managers. -/
def World.init : World := ⟨Machine.init, .empty⟩

/-- One step of the program; as `Machine.step`, but a call runs on the structs. `sw.Current()` is a pointer (pluginManagerSwapper.go:65-71). (Simplification: the assignments of a call are
made when it begins. This cannot be noticed: they all go to structs that no other goroutine has a pointer to before `publish`, theorem `C74_writes`.) -/
def World.step (cfg : Config) (w : World) : Label → Option World
  | .call k env =>
    if refused cfg k then some { w with m := w.m.log .refused }
    else match w.m.running with
      | some _ => none
      | none =>
        let r := run cfg env k (w.m.current.map (·.mid)) w.m.next w.heap
        some {
          heap := r.2.heap
          m := { w.m.log (.called k) with
            next := r.2.next
            builts := (r.2.me.bind r.2.heap.manager).getD noManager :: w.m.builts
            running := some { kind := k, todo := r.2.acts, res := r.1, phase := .idle, held := [] } } }
  | l => (w.m.step cfg l).map (fun m => { w with m := m })

/-- The reachable worlds. -/
inductive WReachable (cfg : Config) : World → Prop
  | init : WReachable cfg World.init
  | step {w w' : World} (l : Label) : WReachable cfg w → w.step cfg l = some w' → WReachable cfg w'

/-- From this world one can get to that one. -/
inductive WLeads (cfg : Config) : World → World → Prop
  | refl (w : World) : WLeads cfg w w
  | step {w w' w'' : World} (l : Label) : WLeads cfg w w' → w'.step cfg l = some w'' → WLeads cfg w w''

end Ptr
end Hotswap
