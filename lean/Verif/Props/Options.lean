import Verif.Model.Options
import Verif.Props.Schedule
import Verif.Props.Selection
import Verif.Props.Linked

/-!
# The options of a swapper (C65)
-/

namespace Hotswap

section
variable [GoRuntime]

/-! ### Specification -/

/-- The arguments of the options of one kind, in order. -/
def freeDelays (opts : List Opt) : List Int := opts.filterMap (fun o => match o with | .withFreeDelay d => some d | _ => none)
def reloadCallbacks (opts : List Opt) : List Bool := opts.filterMap (fun o => match o with | .withReloadCallback b => some b | _ => none)
def extensionNewers (opts : List Opt) : List Bool := opts.filterMap (fun o => match o with | .withExtensionNewer b => some b | _ => none)
def staticPluginsOpts (opts : List Opt) : List (Option (GoMap StaticPlugin)) := opts.filterMap (fun o => match o with | .withStaticPlugins m => some m | _ => none)
def whitelists (opts : List Opt) : List (List Str) := opts.filterMap (fun o => match o with | .withWhitelist l => some l | _ => none)

/-! ### Proofs -/

theorem newSwapper_snoc (opts : List Opt) (o : Opt) : newSwapper (opts ++ [o]) = Opt.apply (newSwapper opts) o := by
  unfold newSwapper; rw [List.foldl_append]; rfl

/-- **C65.** Of several options of one kind the last one counts; options of different kinds do not interfere; without options: 5 minutes, no callback, no extension, plugins are loaded from files, no whitelist. -/
theorem C65_last_wins (opts : List Opt) :
    (newSwapper opts).freeDelay = (freeDelays opts).getLast?.getD 300000000000 ∧
    (newSwapper opts).hasCallback = (reloadCallbacks opts).getLast?.getD false ∧
    (newSwapper opts).hasNewExt = (extensionNewers opts).getLast?.getD false ∧
    (newSwapper opts).static = (staticPluginsOpts opts).getLast?.getD none ∧
    (newSwapper opts).whitelist = (whitelists opts).getLast?.getD [] := by
  induction h : opts.length generalizing opts with
  | zero =>
    rw [List.length_eq_zero_iff] at h
    subst h
    exact ⟨rfl, rfl, rfl, rfl, rfl⟩
  | succ n ih =>
    rcases List.eq_nil_or_concat opts with rfl | ⟨r, o, rfl⟩
    · cases h
    · rw [List.concat_eq_append] at h ⊢
      obtain ⟨h1, h2, h3, h4, h5⟩ := ih r (by simpa using h)
      rw [newSwapper_snoc]
      unfold freeDelays reloadCallbacks extensionNewers staticPluginsOpts whitelists at *
      cases o <;> simp [Opt.apply, List.filterMap_append, h1, h2, h3, h4, h5]

/-- The delay of the machine is that of the settings. -/
theorem C65_delay_of_machine (s : Settings) : (s.config.delay : Int) = s.delay := by
  unfold Settings.config Settings.delay Config.delay minFreeDelay
  simp only
  split <;> split <;> omega

/-- **C65.** A swapper made with `opts`: in every run, `OnFree` begins on an instance of a published manager only if the load that superseded the manager started its delayed free at least 15 s before, and at least as long
before as the last `WithFreeDelay` says, or 5 minutes if there is none. -/
theorem C65_free_delay (opts : List Opt) (hcfg : (newSwapper opts).config.OK) {m : Machine} (h : Reachable (newSwapper opts).config m) {a b : History} {t T i : Nat} {pm : Manager}
    (he : m.trace = a ++ (t, .freeBegin i) :: b) (hp : (T, Ev.act (.publish pm)) ∈ a) (hi : i ∈ pm.insts) :
    ∃ T0 : Nat, (T0, Ev.act (.spawnFree pm)) ∈ a ∧ (T0 : Int) + 15000000000 ≤ t ∧ (T0 : Int) + (freeDelays opts).getLast?.getD 300000000000 ≤ t := by
  obtain ⟨T0, h1, h2⟩ := C12_free_delay hcfg h he hp hi
  refine ⟨T0, h1, ?_, ?_⟩
  · omega
  · rw [← (C65_last_wins opts).1]
    have : (newSwapper opts).config.freeDelay = (newSwapper opts).freeDelay.toNat := rfl
    omega

/-- **C65.** The swapper is in static linking mode if and only if the last `WithStaticPlugins` was given a map (an empty one counts) rather than nil. -/
theorem C65_static_mode (opts : List Opt) : (newSwapper opts).staticLinkingMode = true ↔ ∃ m, (staticPluginsOpts opts).getLast? = some (some m) := by
  unfold Settings.staticLinkingMode
  rw [(C65_last_wins opts).2.2.2.1]
  cases (staticPluginsOpts opts).getLast? with
  | none => simp
  | some x => cases x <;> simp

/-- **C65.** A load of a swapper whose last `WithWhitelist` has no arguments, or that has none, considers every file `*.so` of the directory, and in static linking mode every plugin of the map. -/
theorem C65_no_whitelist (opts : List Opt) (hw : (whitelists opts).getLast?.getD [] = []) :
    (∀ (absDir : Str) (entries : List DirEntry) (f : Str), f ∈ listedFiles (newSwapper opts).config absDir entries ↔
      ∃ e ∈ entries, e.isDir = false ∧ ".so".toList <:+ e.name ∧ f = joinPath absDir e.name) ∧
    ∀ sps, staticSelection (newSwapper opts).config sps = .ok sps := by
  have h := (C65_last_wins opts).2.2.2.2
  rw [hw] at h
  have hc : (newSwapper opts).config.whitelist = [] := h
  constructor
  · intro absDir entries f
    rw [C30_considered, hc]
    unfold Considered
    simp only [true_or, and_true, and_assoc]
  · intro sps
    unfold staticSelection
    rw [hc]; rfl

end

/-! ### Examples -/

section Examples
open Demo
attribute [local instance] Demo.rt

/-- A negative duration still means 15 s; the second `WithFreeDelay` replaces the first; `WithWhitelist()` removes the whitelist. -/
example : (newSwapper [.withFreeDelay 3600000000000, .withWhitelist ["a".toList], .withFreeDelay (-5), .withReloadCallback true, .withWhitelist []]).delay = 15000000000 ∧
    (newSwapper [.withFreeDelay 3600000000000, .withWhitelist ["a".toList], .withFreeDelay (-5), .withReloadCallback true, .withWhitelist []]).whitelist = [] := by decide +kernel

/-- The default delay. -/
example : (newSwapper []).delay = 300000000000 := by decide +kernel

/-- `WithStaticPlugins` of an empty map, and of nil. -/
example : (newSwapper [.withStaticPlugins (some .empty)]).staticLinkingMode = true ∧ (newSwapper [.withStaticPlugins (some .empty), .withStaticPlugins none]).staticLinkingMode = false := by
  decide +kernel

/-- The options of the demonstration runs (in which plugins are freed). -/
example : (newSwapper [.withFreeDelay (-1), .withReloadCallback true]).config = Demo.cfg := rfl

/-- The configurations of dynamic swappers satisfy the hypothesis of `C65_free_delay`. -/
example : (newSwapper [.withFreeDelay 20000000000]).config.OK := by intro sps h; cases h

end Examples

end Hotswap
