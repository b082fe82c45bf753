import Verif.Model.Swapper

/-!
# `NewPluginManagerSwapper` and its options (pluginManagerSwapper.go:20-22, 55-63, 154-160, 240-282)
-/

namespace Hotswap

variable [GoRuntime]

/-- pluginManagerSwapper.go:240-282: an `Option`. A callback and an extension newer are represented by whether they are non-nil (what they do is an input of each call); the logger is not
modelled. The duration is in nanoseconds and may be negative. -/
inductive Opt where
  | withLogger
  | withFreeDelay (d : Int)
  | withReloadCallback (nonNil : Bool)
  | withExtensionNewer (nonNil : Bool)
  | withStaticPlugins (plugins : Option (GoMap StaticPlugin))
  | withWhitelist (names : List Str)

/-- The fields of `PluginManagerSwapper` that options set (pluginManagerSwapper.go:41-49). -/
structure Settings where
  freeDelay : Int
  hasCallback : Bool
  hasNewExt : Bool
  static : Option (GoMap StaticPlugin)
  whitelist : List Str

/-- pluginManagerSwapper.go:242-282: what an option does. -/
def Opt.apply (s : Settings) : Opt → Settings
  | .withLogger => s
  | .withFreeDelay d => { s with freeDelay := d }
  | .withReloadCallback b => { s with hasCallback := b }
  | .withExtensionNewer b => { s with hasNewExt := b }
  | .withStaticPlugins m => { s with static := m }
  | .withWhitelist l => { s with whitelist := l }

/-- pluginManagerSwapper.go:55-63 `NewPluginManagerSwapper`. -/
def newSwapper (opts : List Opt) : Settings :=
  opts.foldl Opt.apply { freeDelay := 300000000000, hasCallback := false, hasNewExt := false, static := none, whitelist := [] }

/-- pluginManagerSwapper.go:155-159: the delay that is used. -/
def Settings.delay (s : Settings) : Int :=
  if s.freeDelay > 15000000000 then s.freeDelay else 15000000000

/-- The configuration of the machine for these settings. Simplification: a negative duration becomes 0 (both mean 15 s, `C65_delay_of_machine`). -/
def Settings.config (s : Settings) : Config :=
  { whitelist := s.whitelist, static := s.static, freeDelay := s.freeDelay.toNat, hasCallback := s.hasCallback, hasNewExt := s.hasNewExt }

/-- pluginManagerSwapper.go:216-218 `StaticLinkingMode`. -/
def Settings.staticLinkingMode (s : Settings) : Bool := s.static.isSome

end Hotswap
