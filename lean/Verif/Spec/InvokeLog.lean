import Verif.Model.InvokeLog

/-!
# What `InvokeEach` does when plugins and loggers misbehave
-/

namespace Hotswap

/-- The call that is made. -/
def InvEv.called? : InvEv → Option (Nat × Str × List Val)
  | .call i n ps => some (i, n, ps)
  | _ => none

/-- Does this event end the whole function? -/
def Fatal (x : InvEv × Answer) : Prop := x.2 = .exits ∨ ∃ i, x.1 = .logPanic i ∧ (x.2 = .panics ∨ x.2 = .panicsNil)

/-- `ev` is what calling `InvokeFunc` of the plugins `order`, in this order, adds to the history `h`; `e` is how it ends; `pre` has been called and `post` has not. -/
structure CalledUntil (w : UserCode) (name : Str) (params : List Val) (order : List Plugin) (h ev : InvHist) (e : Ending) (pre post : List Plugin) : Prop where
  split : order = pre ++ post
  /-- each plugin of `pre` is called, once, with the name and the parameters, in this order -/
  calls : ev.filterMap (fun x => x.1.called?) = pre.map (fun p => (p.inst, name, params))
  /-- the answers are those of the user code -/
  answers : ∀ a x b, ev = a ++ x :: b → x.2 = w (h ++ a) x.1
  /-- an error is reported if and only if the plugin has returned one -/
  errors : ∀ i, (∃ a, (InvEv.logErr i, a) ∈ ev) ↔ (InvEv.call i name params, Answer.err) ∈ ev
  /-- a panic is reported if and only if the plugin, or the logger when it was given the error of the plugin, has panicked with a value other than nil -/
  panics : ∀ i, (∃ a, (InvEv.logPanic i, a) ∈ ev) ↔ (InvEv.call i name params, Answer.panics) ∈ ev ∨ (InvEv.logErr i, Answer.panics) ∈ ev
  /-- nothing is fatal, and all plugins have been called; or the last event, and no other, is fatal -/
  ends : match e with
    | .returns => post = [] ∧ ∀ x ∈ ev, ¬ Fatal x
    | .panics => ∃ ev0 x, ev = ev0 ++ [x] ∧ Fatal x ∧ x.2 ≠ .exits ∧ ∀ y ∈ ev0, ¬ Fatal y
    | .goexit => ∃ ev0 x, ev = ev0 ++ [x] ∧ Fatal x ∧ x.2 = .exits ∧ ∀ y ∈ ev0, ¬ Fatal y

end Hotswap
