import Verif.Proofs.VaultPhase

/-! A failure that names a hook: that hook is the last thing that was called. -/

namespace Hotswap

variable [GoRuntime]

open M

/-- If the failure is about a hook, the last action is the call of that hook, and it did fail. -/
def HookLast (data : Nat) (f : Fail) (s : LoadSt) : Prop :=
  match f with
  | .inl (.hookErr n) =>
      (∃ p ∈ s.pm.ordered, p.name = n ∧ p.unchanged = false ∧ s.acts.getLast? = some (.callOnLoad p.inst data) ∧ p.code.onLoad data = .err) ∨
      (∃ p ∈ s.pm.ordered, ∃ v, p.name = n ∧ p.unchanged = false ∧ s.acts.getLast? = some (.callOnInit p.inst s.pm.mid v) ∧ (p.code.onInit v).1 = .err)
  | .inl (.hookPanic n) =>
      (∃ p ∈ s.pm.pluginMap.vals, p.name = n ∧ p.unchanged = false ∧ s.acts.getLast? = some (.callImport p.inst) ∧ p.code.importRet = .panics) ∨
      (∃ p ∈ s.pm.ordered, p.name = n ∧ p.unchanged = false ∧ s.acts.getLast? = some (.callOnLoad p.inst data) ∧ p.code.onLoad data = .panics) ∨
      (∃ p ∈ s.pm.ordered, ∃ v, p.name = n ∧ p.unchanged = false ∧ s.acts.getLast? = some (.callOnInit p.inst s.pm.mid v) ∧ (p.code.onInit v).1 = .panics)
  | .inl (.badLiveFuncs n) => ∃ p ∈ s.pm.ordered, p.name = n ∧ s.acts.getLast? = some (.callLiveFuncs p.inst) ∧ p.code.liveFuncs = .ret none
  | .inl (.badLiveTypes n) => ∃ p ∈ s.pm.ordered, p.name = n ∧ s.acts.getLast? = some (.callLiveTypes p.inst) ∧ p.code.liveTypes = .ret none
  | .inr .user => ∃ p ∈ s.pm.ordered, (s.acts.getLast? = some (.callLiveFuncs p.inst) ∧ p.code.liveFuncs = .panics) ∨
      (s.acts.getLast? = some (.callLiveTypes p.inst) ∧ p.code.liveTypes = .panics)
  | _ => True

theorem bindField_last (data : Nat) (k : Str) (p : Plugin) (f : Field) {s : LoadSt} :
    wp (bindField k p f) (fun _ _ => True) (HookLast data) s := by
  unfold bindField
  split
  · simp
  · split
    · simp [HookLast]
    · simp only [wp_bind, wp_get]
      split
      · simp [HookLast]
      · split
        · simp [HookLast]
        · split
          · simp [addDep]
          · split
            · simp [addDep]
            · split
              · simp [HookLast]
              · split
                · simp [HookLast]
                · simp [addDep]

theorem importPlugin_last (data : Nat) (k : Str) {s : LoadSt} :
    wp (importPlugin k) (fun _ _ => True) (HookLast data) s := by
  unfold importPlugin
  simp only [wp_bind, wp_get]
  split
  · simp [HookLast]
  · rename_i p hp
    split
    · simp
    · rename_i hu
      simp only [wp_bind, wp_emit]
      unfold invokeRet
      cases hi : p.code.importRet with
      | panics =>
        simp only [wp_throw]
        exact .inl ⟨p, GoMap.mem_vals.mpr ⟨k, hp⟩, rfl, by simpa using hu, by simp, hi⟩
      | ret imp =>
        simp only [wp_mpure]
        split
        · simp
        · split
          · simp
          · split
            · simp [HookLast]
            · exact wp_forEach _ _ (fun _ _ => True) _ trivial (fun _ a _ s _ _ => bindField_last data k p a) (fun _ _ => trivial)

theorem initDeps_last (it : Iter) (data : Nat) {s : LoadSt} : wp (initDeps it) (fun _ _ => True) (HookLast data) s := by
  unfold initDeps
  simp only [wp_bind, wp_get]
  refine wp_forEach _ _ (fun _ _ => True) _ trivial (fun _ a _ s _ _ => importPlugin_last data a) ?_
  intro s _
  unfold checkAllCyclic
  simp only [wp_bind, wp_get]
  refine wp_forEach _ _ (fun _ _ => True) _ trivial ?_ ?_
  · intro done e rest s' _ _
    split
    · simp
    · split <;> simp [HookLast]
  · intro s' _
    unfold checkRebuilt
    simp only [wp_bind, wp_get]
    refine wp_forEach _ _ (fun _ _ => True) _ trivial ?_ ?_
    · intro done e rest s' _ _
      split
      · refine wp_forEach _ _ (fun _ _ => True) _ trivial ?_ (fun _ _ => trivial)
        intro dn d rst s'' _ _
        split
        · simp [HookLast]
        · split <;> simp [HookLast]
      · simp
    · intro s'' _
      unfold setOrder
      simp only [wp_bind, wp_get]
      split
      · simp [HookLast]
      · simp

theorem onLoad_last (data : Nat) {s0 : LoadSt} : wp (invokeEveryOnLoad data) (fun _ _ => True) (HookLast data) s0 := by
  unfold invokeEveryOnLoad
  simp only [wp_bind, wp_get]
  refine wp_forEach _ _ (fun _ s => s.pm = s0.pm) _ rfl ?_ (fun _ _ => trivial)
  intro done p rest s hl hs
  have hm : p ∈ s.pm.ordered := by rw [hs, hl]; simp
  split
  · exact hs
  · rename_i hu
    simp only [wp_bind, wp_emit]
    split
    · exact hs
    · rename_i hc
      exact .inl ⟨p, hm, rfl, by simpa using hu, by simp, hc⟩
    · rename_i hc
      exact .inr (.inl ⟨p, hm, rfl, by simpa using hu, by simp, hc⟩)

theorem onInit_last (data : Nat) {s0 : LoadSt} : wp invokeEveryOnInit (fun _ _ => True) (HookLast data) s0 := by
  unfold invokeEveryOnInit
  simp only [wp_bind, wp_get]
  refine wp_forEach _ _ (fun _ s => s.pm.ordered = s0.pm.ordered) _ rfl ?_ (fun _ _ => trivial)
  intro done p rest s hl hs
  have hm : p ∈ s.pm.ordered := by rw [hs, hl]; simp
  split
  · exact hs
  · rename_i hu
    simp only [wp_bind, wp_emit, wp_get, wp_modPm]
    split
    · exact hs
    · rename_i hc
      exact .inr ⟨p, hm, _, rfl, by simpa using hu, by simp, hc⟩
    · rename_i hc
      exact .inr (.inr ⟨p, hm, _, rfl, by simpa using hu, by simp, hc⟩)

theorem setupLiveFuncs_last (it : Iter) (data : Nat) (l : List Plugin) : ∀ (rest before : List Plugin) (s : LoadSt), s.pm.ordered = l → (∀ p ∈ rest, p ∈ l) →
    wp (setupLiveFuncs it before rest) (fun _ s => s.pm.ordered = l) (HookLast data) s
  | [], _, s, hs, _ => hs
  | p :: r, before, s, hs, hm => by
    unfold setupLiveFuncs
    simp only [wp_bind, wp_emit]
    have hp : p ∈ s.pm.ordered := by rw [hs]; exact hm p (by simp)
    split
    · rename_i hc; exact ⟨p, hp, .inl ⟨by simp, hc⟩⟩
    · rename_i hc; exact ⟨p, hp, rfl, by simp, hc⟩
    · rename_i m hc
      simp only [wp_bind]
      unfold addLiveFuncs
      refine wp_forEach _ _ (fun _ s => s.pm.ordered = l) _ hs ?_ ?_
      · intro done e rest s' _ hs'
        simp only [wp_bind, wp_get]
        split
        · simpa using hs'
        · simp [HookLast]
      · intro s' hs'
        exact setupLiveFuncs_last it data l r _ s' hs' (fun q hq => hm q (by simp [hq]))

theorem setupLiveTypes_last (it : Iter) (data : Nat) (l : List Plugin) : ∀ (rest before : List Plugin) (s : LoadSt), s.pm.ordered = l → (∀ p ∈ rest, p ∈ l) →
    wp (setupLiveTypes it before rest) (fun _ s => s.pm.ordered = l) (HookLast data) s
  | [], _, s, hs, _ => hs
  | p :: r, before, s, hs, hm => by
    unfold setupLiveTypes
    simp only [wp_bind, wp_emit]
    have hp : p ∈ s.pm.ordered := by rw [hs]; exact hm p (by simp)
    split
    · rename_i hc; exact ⟨p, hp, .inr ⟨by simp, hc⟩⟩
    · rename_i hc; exact ⟨p, hp, rfl, by simp, hc⟩
    · rename_i m hc
      simp only [wp_bind]
      unfold addLiveTypes
      refine wp_forEach _ _ (fun _ s => s.pm.ordered = l) _ hs ?_ ?_
      · intro done e rest s' _ hs'
        simp only [wp_bind, wp_get]
        split
        · simpa using hs'
        · simp [HookLast]
      · intro s' hs'
        exact setupLiveTypes_last it data l r _ s' hs' (fun q hq => hm q (by simp [hq]))

theorem finishLoad_last (it : Iter) (data : Nat) {s0 : LoadSt} : wp (finishLoad it data) (fun _ _ => True) (HookLast data) s0 := by
  unfold finishLoad
  simp only [wp_bind]
  refine wp_mono (initDeps_last it data) (fun _ s1 _ => ?_) (fun _ _ h => h)
  refine wp_mono (onLoad_last data) (fun _ s2 _ => ?_) (fun _ _ h => h)
  unfold setupVault
  simp only [wp_bind, wp_get]
  refine wp_mono (setupLiveFuncs_last it data s2.pm.ordered s2.pm.ordered [] s2 rfl (fun _ h => h)) (fun _ s3 h3 => ?_) (fun _ _ h => h)
  refine wp_mono (setupLiveTypes_last it data s2.pm.ordered s2.pm.ordered [] s3 h3 (fun _ h => h)) (fun _ s4 _ => ?_) (fun _ _ h => h)
  exact onInit_last data

end Hotswap
