import Verif.Spec.Manager

/-!
# Dependency paths (C76)
-/

namespace Hotswap

variable [GoRuntime]

/-- A path along dependencies that starts at `p`: the list says, plugin by plugin, which entry of `Deps` is followed. The empty path stays at `p`. -/
inductive Walk (m : GoMap Plugin) : Plugin → List Nat → Prop
  | stay (p : Plugin) : Walk m p []
  | follow {p q : Plugin} {i : Nat} {d : Str} {w : List Nat} (hd : p.deps[i]? = some d) (hq : m.get? (name2key d) = some q) (hw : Walk m q w) : Walk m p (i :: w)

/-- `L` lists the paths that start at `p`, each exactly once. -/
def ListsWalks (m : GoMap Plugin) (p : Plugin) (L : List (List Nat)) : Prop := L.Nodup ∧ ∀ w, w ∈ L ↔ Walk m p w

/-- `L` lists the paths that start at plugins with dependencies, each exactly once, with the key of the plugin it starts at. -/
def ListsAllWalks (m : GoMap Plugin) (L : List (Str × List Nat)) : Prop :=
  L.Nodup ∧ ∀ k w, (k, w) ∈ L ↔ ∃ p, m.get? k = some p ∧ p.deps ≠ [] ∧ Walk m p w

end Hotswap
