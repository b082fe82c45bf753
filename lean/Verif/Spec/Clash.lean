import Verif.Spec.Static
import Verif.Spec.Trace

/-!
# Statically linked plugins whose names differ only in case (C32, C82)
-/

namespace Hotswap

variable [GoRuntime]

/-- Among the selected plugins with the name of `sp` up to case, `n` is the last key (in the order of Go strings). -/
def Survives (cfg : Config) (sps : GoMap StaticPlugin) (n : Str) (sp : StaticPlugin) : Prop :=
  Selected cfg sps n sp ∧ ∀ n' sp', Selected cfg sps n' sp' → name2key sp'.name = name2key sp.name → n' ≤ n

/-- The plugins of a map that are last among those with the same name up to case. -/
def lastOnes (sel : GoMap StaticPlugin) : GoMap StaticPlugin :=
  sel.filter (fun n sp => sel.entries.all (fun e => name2key e.2.name != name2key sp.name || decide (e.1 ≤ n)))

/-- The selected plugins. -/
def selectedMap (cfg : Config) (sps : GoMap StaticPlugin) : GoMap StaticPlugin :=
  sps.filter (fun n _ => cfg.whitelist.isEmpty || cfg.whitelist.contains n)

/-- The surviving plugins. -/
def survivors (cfg : Config) (sps : GoMap StaticPlugin) : GoMap StaticPlugin := lastOnes (selectedMap cfg sps)

/-- The same program with the surviving plugins only. -/
def Config.survivorsOnly (cfg : Config) (sps : GoMap StaticPlugin) : Config := { cfg with static := some (survivors cfg sps), whitelist := [] }

/-- The plugin instance an action concerns. -/
def Act.inst? : Act → Option Nat
  | .callReloadable i | .callExport i | .register i | .inc i | .callImport i | .callOnLoad i _ | .callLiveFuncs i | .callLiveTypes i
  | .callOnInit i _ _ | .release i => some i
  | .openPlugin _ | .callback _ _ _ | .spawnFree _ | .publish _ | .count => none

/-- The actions that concern instance `i`. -/
def about (i : Nat) (l : List Act) : List Act := l.filter (fun a => a.inst? == some i)


end Hotswap
