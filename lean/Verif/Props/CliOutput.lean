import Verif.Model.Cli.Output
import Verif.Props.Naming
import Verif.Props.CliNaming
import Verif.Props.Selection

/-!
# From the build to the load (C66)
-/

namespace Hotswap.Cli

section
variable [GoRuntime]

theorem outputFile_name {outputDir name : Str} {parent : AbsDir} (hn : IsComponent name) : pluginName (outputFile outputDir (name :: parent)) = name := by
  unfold outputFile AbsDir.base
  exact C52_name_round_trip outputDir name hn.2

/-- **C66.** What `hotswap build` writes for the plugin directory `parent/name` is a plugin called `name`, and a load from the output directory considers it if and only if it is there, is not a directory, and the whitelist, if there is one, has `name`. -/
theorem C66_built_is_considered (cfg : Config) {outputDir name : Str} {parent : AbsDir} (hn : IsComponent name) (entries : List DirEntry) :
    pluginName (outputFile outputDir (name :: parent)) = name ∧
    (outputFile outputDir (name :: parent) ∈ listedFiles cfg outputDir entries ↔
      (∃ e ∈ entries, e.name = name ++ ".so".toList ∧ e.isDir = false) ∧ (cfg.whitelist = [] ∨ name ∈ cfg.whitelist)) := by
  refine ⟨outputFile_name hn, ?_⟩
  have hpn : pluginName (name ++ fileNameExt) = name := by
    have h := C52_name_round_trip ['/'] name hn.2
    unfold pluginName at h ⊢
    have hb : filepathBase (joinPath ['/'] (name ++ fileNameExt)) = filepathBase (name ++ fileNameExt) := by
      have h1 : name ++ fileNameExt ≠ [] := by simp [hn.1]
      have h2 : '/' ∉ name ++ fileNameExt := by simp [hn.2, ext_no_slash]
      rw [base_joinPath h1 h2, base_plain h1 h2]
    rw [← hb]; exact h
  rw [C30_considered]
  unfold outputFile AbsDir.base Considered
  have he : fileNameExt = ".so".toList := rfl
  constructor
  · rintro ⟨e, he1, ⟨h1, h2, h3⟩, h4⟩
    have h5 := joinPath_right_inj h4
    simp only at h5
    refine ⟨⟨e, he1, by rw [← h5, he], h1⟩, ?_⟩
    rwa [← h5, hpn] at h3
  · rintro ⟨⟨e, he1, h1, h2⟩, h3⟩
    rw [← he] at h1
    refine ⟨e, he1, ⟨h2, ?_, ?_⟩, ?_⟩
    · rw [h1]; exact List.suffix_append _ _
    · rw [h1, hpn]; exact h3
    · rw [h1]

/-- **C66.** Two builds write the same file if and only if output directory and name of the plugin directory agree; so two plugins of the same name, from different places, replace each other. -/
theorem C66_same_output_iff {outputDir outputDir' name name' : Str} {parent parent' : AbsDir} (hn : IsComponent name) (hn' : IsComponent name') (hd : CleanDir outputDir) (hd' : CleanDir outputDir') :
    outputFile outputDir (name :: parent) = outputFile outputDir' (name' :: parent') ↔ outputDir = outputDir' ∧ name = name' := by
  unfold outputFile AbsDir.base
  constructor
  · intro h
    obtain ⟨h1, h2⟩ := joinPath_inj hd hd' (by simp [hn.2, ext_no_slash]) (by simp [hn'.2, ext_no_slash]) h
    exact ⟨h1, List.append_cancel_right h2⟩
  · rintro ⟨rfl, rfl⟩; rfl

/-- **C66.** A plugin whose directory has an upper-case letter in its name can be built, but a load of the output directory that has to open the file fails (C27). -/
theorem C66_upper_case_builds_but_never_loads {cfg : Config} (hcfg : cfg.OK) (hst : cfg.static = none) {m : Machine} (h : Reachable cfg m) (env : Env) (k : Kind)
    {outputDir name : Str} {parent : AbsDir} (hn : IsComponent name) (hup : name.map GoRuntime.toLower ≠ name)
    {entries : List DirEntry} (hdir : env.dir = some (outputDir, entries)) (hthere : ∃ e ∈ entries, e.name = name ++ ".so".toList ∧ e.isDir = false) (hw : cfg.whitelist = [] ∨ name ∈ cfg.whitelist)
    (hnew : NotKeptFile env m (outputFile outputDir (name :: parent))) :
    ∀ d, (plan cfg env k m.current m.next).res ≠ .ok d :=
  C27_upper_case_never_loads hcfg hst h env k hdir ((C66_built_is_considered cfg hn entries).2.mpr ⟨hthere, hw⟩) hnew (by rw [outputFile_name hn]; exact hup)

end

/-! ### Examples -/

section Examples
attribute [local instance] Demo.rt

/-- `hotswap build plugin/foo /bin`, then a load from `/bin`. -/
example : outputFile "/bin".toList ["foo".toList, "plugin".toList] = "/bin/foo.so".toList ∧
    listedFiles Demo.cfg "/bin".toList [⟨"foo.so".toList, false⟩, ⟨"foo.log".toList, false⟩] = ["/bin/foo.so".toList] := by decide +kernel

/-- Plugins of the same name from different directories are written to the same file. -/
example : outputFile "/bin".toList ["foo".toList, "a".toList] = outputFile "/bin".toList ["foo".toList, "b".toList] := by decide +kernel

/-- `Foo.so` is considered and makes the load fail. -/
example : outputFile "/p".toList ["Base".toList, "plugin".toList] ∈ listedFiles Demo.cfg "/p".toList [⟨"Base.so".toList, false⟩] ∧ "Base".toList.map GoRuntime.toLower ≠ "Base".toList := by
  decide +kernel

end Examples

end Hotswap.Cli
