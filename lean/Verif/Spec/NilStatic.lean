import Verif.Model.NilStatic
import Verif.Spec.Acts

/-! Nil pointers among the statically linked plugins. -/

namespace Hotswap

/-- The plugins that are not nil. -/
def nonNil (sps : GoMap (Option StaticPlugin)) : GoMap StaticPlugin where
  entries := sps.entries.filterMap (fun e => e.2.map (fun sp => (e.1, sp)))
  nodup := by
    have : (sps.entries.filterMap (fun e => e.2.map (fun sp => (e.1, sp)))).map Prod.fst = (sps.entries.filter (fun e => e.2.isSome)).map Prod.fst := by
      induction sps.entries with
      | nil => rfl
      | cons e l ih => rcases e with ⟨k, _ | v⟩ <;> simp [ih]
    rw [this]
    exact (List.Sublist.map _ List.filter_sublist).nodup sps.nodup

/-- A nil pointer is stored under the name `n`, and the whitelist does not leave it out. -/
def NilAt (wl : List Str) (sps : GoMap (Option StaticPlugin)) (n : Str) : Prop := sps.get? n = some none ∧ (wl = [] ∨ n ∈ wl)

/-- Nothing is wrong with the plugin on its own: it has all functions, and `Reloadable` and `Export` return. -/
def Loads [GoRuntime] (sp : StaticPlugin) : Prop :=
  (∀ f ∈ ["OnLoad", "OnInit", "OnFree", "Export", "Import", "InvokeFunc", "Reloadable", "HotswapLiveFuncs", "HotswapLiveTypes"], sp.missing f.toList = false) ∧
  (∃ b, sp.code.reloadable = .ret b) ∧ ∃ x, sp.code.exportRet = .ret x

/-- All plugins that the whitelist does not leave out and whose names are less than `n` load. -/
def LoadsBefore [GoRuntime] (wl : List Str) (sps : GoMap (Option StaticPlugin)) (n : Str) : Prop :=
  ∀ n' v, n' < n → (wl = [] ∨ n' ∈ wl) → sps.get? n' = some v → ∃ sp, v = some sp ∧ Loads sp

/-- The error of a load with a nil pointer among its plugins: the first name, in byte order, under which something is wrong decides. -/
inductive NilErr [GoRuntime] (wl : List Str) (sps : GoMap (Option StaticPlugin)) : Err → Prop
  | pointer (n : Str) (isNil : NilAt wl sps n) (before : LoadsBefore wl sps n) : NilErr wl sps (.panicked none .nilDeref)
  | plugin (n : Str) (sp : StaticPlugin) (e : Err) (sel : wl = [] ∨ n ∈ wl) (there : sps.get? n = some (some sp)) (wrong : ¬ Loads sp) (before : LoadsBefore wl sps n) :
      NilErr wl sps (.loading n e)

end Hotswap
