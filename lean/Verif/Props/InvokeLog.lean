import Verif.Proofs.InvokeLog
import Verif.Props.Unprintable

/-!
# C95: `InvokeEach` with plugins and loggers that misbehave
-/

namespace Hotswap

section

variable [GoRuntime]

/-- **C95.** `InvokeEach` calls the plugins in the order of `Plugins()`, each once, until something fatal happens: a logger that panics when it is given the report of a panic, or the end of the goroutine. -/
theorem C95_each {next : Nat} {pm : Manager} (hs : SoundManager next pm) (w : UserCode) (name : Str) (params : List Val) (h : InvHist) :
    ∃ ev pre post, (pm.invokeEachX w name params h).2 = h ++ ev ∧ CalledUntil w name params pm.plugins h ev (pm.invokeEachX w name params h).1 pre post :=
  InvokeLog.each w name params pm.plugins ((hs.ordered.map (fun p : Plugin => p.inst)).symm.nodup hs.nodup) h

/-- **C95.** `InvokeEachBackward` does the same in reverse order. -/
theorem C95_backward {next : Nat} {pm : Manager} (hs : SoundManager next pm) (w : UserCode) (name : Str) (params : List Val) (h : InvHist) :
    ∃ ev pre post, (pm.invokeEachBackwardX w name params h).2 = h ++ ev ∧ CalledUntil w name params pm.plugins.reverse h ev (pm.invokeEachBackwardX w name params h).1 pre post := by
  unfold Manager.invokeEachBackwardX
  rw [InvokeLog.back_eq _ _ _ _ _ (Nat.le_refl _), List.take_length]
  refine InvokeLog.each w name params _ ?_ h
  rw [List.map_reverse]
  exact List.nodup_reverse.mpr ((hs.ordered.map (fun p : Plugin => p.inst)).symm.nodup hs.nodup)

/-- **C95.** So it is for every manager that `Current()` returns, in any history with hostile code. -/
theorem C95_current {cfg : Config} (hcfg : cfg.OK) {m : Machine} {L : List Nat} (hr : WReachable cfg m L) {pm : Manager} (hpm : m.current = some pm) (w : UserCode) (name : Str) (params : List Val) (h : InvHist) :
    (∃ ev pre post, (pm.invokeEachX w name params h).2 = h ++ ev ∧ CalledUntil w name params pm.plugins h ev (pm.invokeEachX w name params h).1 pre post) ∧
    ∃ ev pre post, (pm.invokeEachBackwardX w name params h).2 = h ++ ev ∧ CalledUntil w name params pm.plugins.reverse h ev (pm.invokeEachBackwardX w name params h).1 pre post :=
  ⟨C95_each (WReachable.sound hcfg hr pm hpm) w name params h, C95_backward (WReachable.sound hcfg hr pm hpm) w name params h⟩

theorem CalledUntil.complete {w : UserCode} {name : Str} {params : List Val} {order : List Plugin} {h ev : InvHist} {e : Ending} {pre post : List Plugin}
    (g : CalledUntil w name params order h ev e pre post) (h1 : ∀ h i, w h (.logPanic i) = .ok) (h2 : ∀ h x, w h x ≠ .exits) : e = .returns ∧ ev.filterMap (fun x => x.1.called?) = order.map (fun p => (p.inst, name, params)) := by
  have safe : ∀ x ∈ ev, ¬ Fatal x := by
    intro x hx hf
    obtain ⟨a, b, e⟩ := List.append_of_mem hx
    have := g.answers a x b e
    rcases hf with hf | ⟨i, hi, hf⟩
    · exact h2 _ _ (this ▸ hf)
    · rw [hi, h1] at this
      rw [this] at hf
      simp at hf
  have key := g.ends
  cases e with
  | returns => exact ⟨rfl, by rw [g.calls, g.split, key.1, List.append_nil]⟩
  | panics =>
    obtain ⟨ev0, x, e, hf, _⟩ := key
    exact absurd hf (safe x (by rw [e]; simp))
  | goexit =>
    obtain ⟨ev0, x, e, hf, _⟩ := key
    exact absurd hf (safe x (by rw [e]; simp))

/-- **C95.** If reports of panics do not make the logger panic, and nothing ends the goroutine, every plugin is called and the function returns; whatever else plugins and logger do (errors, panics, panics with nil; a logger that panics when it
is given an error). -/
theorem C95_complete {next : Nat} {pm : Manager} (hs : SoundManager next pm) (w : UserCode) (name : Str) (params : List Val) (h : InvHist) (h1 : ∀ h i, w h (.logPanic i) = .ok) (h2 : ∀ h x, w h x ≠ .exits) :
    (pm.invokeEachX w name params h).1 = .returns ∧ (pm.invokeEachBackwardX w name params h).1 = .returns ∧
    ∃ ev ev', (pm.invokeEachX w name params h).2 = h ++ ev ∧ (pm.invokeEachBackwardX w name params h).2 = h ++ ev' ∧
      ev.filterMap (fun x => x.1.called?) = pm.plugins.map (fun p => (p.inst, name, params)) ∧
      ev'.filterMap (fun x => x.1.called?) = (pm.plugins.map (fun p => (p.inst, name, params))).reverse := by
  obtain ⟨ev, pre, post, g1, g2⟩ := C95_each hs w name params h
  obtain ⟨ev', pre', post', g1', g2'⟩ := C95_backward hs w name params h
  obtain ⟨k1, k2⟩ := g2.complete h1 h2
  obtain ⟨k1', k2'⟩ := g2'.complete h1 h2
  exact ⟨k1, k1', ev, ev', g1, g1', k2, by rw [k2', List.map_reverse]⟩

/-- **C95.** A panic that leaves `InvokeEach` is that of the logger, when it was given the report of a panic of the plugin that was called last; the plugins after it have not been called. -/
theorem C95_panics {next : Nat} {pm : Manager} (hs : SoundManager next pm) (w : UserCode) (name : Str) (params : List Val) (h : InvHist) (hp : (pm.invokeEachX w name params h).1 = .panics) :
    ∃ ev a pre p post, (pm.invokeEachX w name params h).2 = h ++ ev ++ [(.logPanic p.inst, a)] ∧ (a = .panics ∨ a = .panicsNil) ∧ pm.plugins = pre ++ p :: post ∧
      ev.filterMap (fun x => x.1.called?) = (pre ++ [p]).map (fun p => (p.inst, name, params)) ∧
      ((InvEv.call p.inst name params, Answer.panics) ∈ ev ∨ (InvEv.logErr p.inst, Answer.panics) ∈ ev) := by
  have hn : (pm.plugins.map (·.inst)).Nodup := (hs.ordered.map (fun p : Plugin => p.inst)).symm.nodup hs.nodup
  obtain ⟨pre, p, post, h1, h2⟩ := InvokeLog.each_stop w name params pm.plugins h (by rw [show eachLoop w name params pm.plugins h = pm.invokeEachX w name params h from rfl, hp]; simp)
  obtain ⟨ev, pre', post', g1, g2⟩ := C95_each hs w name params h
  have key := g2.ends
  rw [hp] at key
  obtain ⟨ev0, x, k1, k2, k3, k4⟩ := key
  obtain ⟨i, hi, ha⟩ : ∃ i, x.1 = .logPanic i ∧ (x.2 = .panics ∨ x.2 = .panicsNil) := k2.resolve_left k3
  obtain ⟨ev1, ev2, g3, g4, g5⟩ := h2
  -- the last event belongs to the last plugin
  have e : ev = ev1 ++ ev2 := List.append_cancel_left (by rw [← g1, ← List.append_assoc]; exact g3)
  have hx : x ∈ ev2 := by
    have hl : ev1 ++ ev2 = ev0 ++ [x] := by rw [← e, k1]
    have hne : ev2 ≠ [] := by
      intro h0
      have := g5.calls
      rw [h0] at this
      simp at this
    have := congrArg List.getLast? hl
    rw [List.getLast?_append_of_ne_nil _ hne, List.getLast?_append] at this
    simp at this
    exact List.mem_of_getLast? this
  have hip : i = p.inst := by
    rcases g5.own x hx with e | e | e <;> rw [hi] at e <;> simp at e
    exact e
  subst hip
  refine ⟨ev0, x.2, pre, p, post, ?_, ha, h1, ?_, ?_⟩
  · rw [g1, k1, ← hi]; simp
  · have hc : ev0.filterMap (fun x => x.1.called?) = ev.filterMap (fun x => x.1.called?) := by
      rw [k1, List.filterMap_append]
      simp [hi, InvEv.called?]
    rw [hc, e, List.filterMap_append, g4, g5.calls]
    simp
  · have := (g2.panics p.inst).mp ⟨x.2, by rw [k1, ← hi]; simp⟩
    rw [k1] at this
    simp only [List.mem_append, List.mem_singleton] at this
    rcases this with (h | h) | (h | h)
    · exact .inl h
    · rw [← h] at hi; cases hi
    · exact .inr h
    · rw [← h] at hi; cases hi

/-- **C95.** With plugin code and loggers as in C33 it is the `InvokeEach` of C33. -/
theorem C95_as_C33 (pm : Manager) (react : Reaction) (w : UserCode) (name : Str) (params : List Val) (h : InvHist)
    (h1 : ∀ h p, p ∈ pm.plugins → w h (.call p.inst name params) = match react (h.map Prod.fst) p name params with | .ok => .ok | .err => .err | .panics => .panics)
    (h2 : ∀ h i, w h (.logErr i) = .ok) (h3 : ∀ h i, w h (.logPanic i) = .ok) :
    (pm.invokeEachX w name params h).1 = .returns ∧ (pm.invokeEachX w name params h).2.map Prod.fst = pm.invokeEach react name params (h.map Prod.fst) := by
  unfold Manager.invokeEachX Manager.invokeEach
  revert h1
  generalize pm.plugins = l
  intro h1
  induction l generalizing h with
  | nil => exact ⟨rfl, rfl⟩
  | cons p r ih =>
    have one : ∃ h', invokeImplX w name params p h = (.returns, h') ∧ h'.map Prod.fst = invokeImpl react name params (h.map Prod.fst) p := by
      have := h1 h p (by simp)
      unfold invokeImplX askUser invokeImpl
      cases ho : react (h.map Prod.fst) p name params <;> rw [ho] at this <;> simp only at this <;> rw [this]
      · exact ⟨_, rfl, by simp⟩
      · exact ⟨_, by simp only [h2]; rfl, by simp⟩
      · exact ⟨_, by simp only [reportPanic, askUser, h3]; rfl, by simp⟩
    obtain ⟨h', e1, e2⟩ := one
    unfold eachLoop
    rw [e1]
    simp only [List.foldl_cons]
    rw [← e2]
    exact ih h' (fun h p hp => h1 h p (by simp [hp]))

end

namespace Demo

attribute [local instance] rt

/-- The manager after the first load: `base` (2), then `app` (1). -/
def mgrShown : Manager := m1.current.getD noManager

theorem mgrShown_sound : SoundManager m1.next mgrShown := by
  refine WReachable.sound cfg_ok (C91_with_nil (m1_reachable.nil cfg_ok)) mgrShown ?_
  have h : m1.current.isSome = true := by decide +kernel
  unfold mgrShown
  cases e : m1.current with
  | none => rw [e] at h; cases h
  | some om => rfl

/-- `base` returns an error, `app` panics. A logger that panics when it is given an error, and returns when it is given a report: everything is called. -/
def user1 : UserCode := fun _ e => match e with
  | .call 2 _ _ => .err
  | .call _ _ _ => .panics
  | .logErr _ => .panics
  | .logPanic _ => .ok

/-- A logger that always panics. -/
def user2 : UserCode := fun _ e => match e with
  | .call 2 _ _ => .err
  | .call _ _ _ => .ok
  | _ => .panics

/-- The first plugin ends the goroutine. -/
def user3 : UserCode := fun _ e => match e with
  | .call 2 _ _ => .exits
  | _ => .ok

/-- The hypotheses of `C95_each`, `C95_complete` and `C95_panics`, and what happens. -/
example : SoundManager m1.next mgrShown ∧ mgrShown.plugins.map (·.inst) = [2, 1] ∧ (∀ h i, user1 h (.logPanic i) = .ok) ∧ (∀ h x, user1 h x ≠ .exits) ∧
    (mgrShown.invokeEachX user1 [] [] []) = (.returns, [(.call 2 [] [], .err), (.logErr 2, .panics), (.logPanic 2, .ok), (.call 1 [] [], .panics), (.logPanic 1, .ok)]) ∧
    (mgrShown.invokeEachX user2 [] [] []) = (.panics, [(.call 2 [] [], .err), (.logErr 2, .panics), (.logPanic 2, .panics)]) ∧
    (mgrShown.invokeEachBackwardX user2 [] [] []).1 = .panics ∧ ((mgrShown.invokeEachBackwardX user2 [] [] []).2.filterMap (fun x => x.1.called?)).length = 2 ∧
    (mgrShown.invokeEachX user3 [] [] []) = (.goexit, [(.call 2 [] [], .exits)]) := by
  refine ⟨mgrShown_sound, by decide +kernel, fun _ _ => rfl, ?_, by decide +kernel, by decide +kernel, by decide +kernel, by decide +kernel, by decide +kernel⟩
  intro h x
  unfold user1
  split <;> simp

end Demo

end Hotswap
