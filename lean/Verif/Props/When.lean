import Verif.Proofs.WhenAll
import Verif.Props.Demo

/-!
# C92: `Plugin.When`
-/

namespace Hotswap

variable [GoRuntime]

theorem shown_inst {cfg : Config} (hcfg : cfg.OK) {m : Machine} (h : Reachable cfg m) {pm : Manager} (hc : m.current = some pm) {p : Plugin} (hp : p ∈ pm.plugins) : p.inst ∈ m.currentInsts := by
  unfold Machine.currentInsts
  rw [hc]
  exact List.mem_map.mpr ⟨p, ((inv hcfg h).cur pm hc).1.ordered.mem_iff.mp hp, rfl⟩

/-- The field adds nothing to the histories of the swapper … -/
theorem C92_machine {cfg : Config} {s : TMachine} (h : TReachable cfg s) : Reachable cfg s.m := h.machine

/-- … and takes none away: every history of Model/Machine, whatever the calls, the files, the plugins and the schedule, is one of the machine with the field. -/
theorem C92_every_history {cfg : Config} {m : Machine} (h : Reachable cfg m) : ∃ s, TReachable cfg s ∧ s.m = m := every_history h

/-- Every plugin that `Current()` shows has a `When`, and it lies in the call that loaded the plugin: after that call began and before it opened a file or called any hook of the plugin — even if many calls have kept the plugin since. -/
theorem C92_when {cfg : Config} (hcfg : cfg.OK) {s : TMachine} (h : TReachable cfg s) {pm : Manager} (hc : s.m.current = some pm) {p : Plugin} (hp : p ∈ pm.plugins) :
    ∃ w, s.shown p.inst = some w ∧ LoadedAt s.m.trace p.inst w := by
  obtain ⟨B, hB⟩ := tinv hcfg h
  have hi := shown_inst hcfg h.machine hc hp
  obtain ⟨h1, h2⟩ := hB.cur _ hi
  obtain ⟨w, hw⟩ := Option.isSome_iff_exists.mp h2
  exact ⟨w, h1.trans hw, hB.born _ _ hw⟩

/-- The plugins that one call has loaded have the same `When`. -/
theorem C92_same_call {cfg : Config} (hcfg : cfg.OK) {s : TMachine} (h : TReachable cfg s) {pm : Manager} (hc : s.m.current = some pm) {p q : Plugin} (hp : p ∈ pm.plugins) (hq : q ∈ pm.plugins)
    {x y z : History} {t t' : Nat} (htr : s.m.trace = x ++ (t, .act (.callReloadable p.inst)) :: (y ++ (t', .act (.callReloadable q.inst)) :: z)) (hy : ∀ e ∈ y, e.2.isCall = false) :
    s.shown p.inst = s.shown q.inst := by
  obtain ⟨B, hB⟩ := tinv hcfg h
  have hi : ∀ p ∈ pm.plugins, p.inst ∈ s.m.currentInsts := fun p hp => shown_inst hcfg h.machine hc hp
  rw [(hB.cur _ (hi p hp)).1, (hB.cur _ (hi q hq)).1]
  exact hB.same x t _ y t' _ z htr hy

omit [GoRuntime] in
/-- An event that occurs once. -/
theorem event_unique {tr a b x y : History} {e f : Nat × Ev} {g : Ev} (h1 : tr = a ++ e :: b) (h2 : tr = x ++ f :: y) (he : e.2 = g) (hf : f.2 = g) (hone : ∀ u v w p q, tr = u ++ (p, g) :: (v ++ (q, g) :: w) → False) :
    a = x ∧ e = f ∧ b = y := by
  obtain ⟨e1, e2⟩ := e
  obtain ⟨f1, f2⟩ := f
  simp only at he hf
  subst he; subst hf
  rcases List.append_eq_append_iff.mp (h1.symm.trans h2) with ⟨c, h3, h4⟩ | ⟨c, h3, h4⟩
  · cases c with
    | nil => simp at h3 h4; exact ⟨h3.symm, by rw [h4.1], h4.2⟩
    | cons z c =>
      simp at h4
      exact (hone a c y e1 f1 (by rw [h1, h4.2])).elim
  · cases c with
    | nil => simp at h3 h4; exact ⟨h3, by rw [h4.1], h4.2.symm⟩
    | cons z c =>
      simp at h4
      exact (hone x c b f1 e1 (by rw [h2, h4.2])).elim

theorem reloadable_unique {cfg : Config} (hcfg : cfg.OK) {m : Machine} (h : Reachable cfg m) (i : Nat) : ∀ u v w p q, m.trace = u ++ (p, Ev.act (.callReloadable i)) :: (v ++ (q, .act (.callReloadable i)) :: w) → False := by
  intro u v w p q he
  have hsub := hooksOf_sublist hcfg h i
  have hnd : (m.hooksOf i).Nodup := hsub.nodup (by decide)
  have key : ∀ tr : History, m.trace = tr → m.hooksOf i = ((((tr.map Prod.snd).filterMap evHook).filter (fun e => e.1 = i)).map Prod.snd) := by
    intro tr he
    unfold Machine.hooksOf Machine.hooks Machine.events
    rw [he]
  have hf : evHook (.act (.callReloadable i)) = some (i, .reloadable) := rfl
  rw [key _ he] at hnd
  simp only [List.map_append, List.map_cons, List.filterMap_append, List.filterMap_cons, hf, List.filter_append, List.filter_cons, decide_true, if_true] at hnd
  have := (List.nodup_append.mp hnd).2.1
  simp at this

/-- The plugins of different calls have their `When` in the order of the calls: if a call began between the loading of two plugins, at time `t0`, the one has its `When` before and the other after `t0`. -/
theorem C92_order {cfg : Config} (hcfg : cfg.OK) {s : TMachine} (h : TReachable cfg s) {pm : Manager} (hc : s.m.current = some pm) {p q : Plugin} (hp : p ∈ pm.plugins) (hq : q ∈ pm.plugins)
    {x y z : History} {t t' t0 : Nat} {k : Kind} (htr : s.m.trace = x ++ (t, .act (.callReloadable p.inst)) :: (y ++ (t', .act (.callReloadable q.inst)) :: z)) (hk : (t0, Ev.called k) ∈ y) :
    ∃ v w, s.shown p.inst = some v ∧ s.shown q.inst = some w ∧ v ≤ t0 ∧ t0 ≤ w := by
  obtain ⟨v, hv, a, t1, k1, b, t2, c, e1, n1, u1, u2, _⟩ := C92_when hcfg h hc hp
  obtain ⟨w, hw, a', t3, k3, b', t4, c', e2, n2, u3, u4, _⟩ := C92_when hcfg h hc hq
  refine ⟨v, w, hv, hw, ?_, ?_⟩
  · have e1' : s.m.trace = (a ++ (t1, .called k1) :: b) ++ (t2, .act (.callReloadable p.inst)) :: c := by rw [e1]; simp
    obtain ⟨_, he, _⟩ := event_unique e1' htr rfl rfl (reloadable_unique hcfg h.machine p.inst)
    cases he
    obtain ⟨y1, y2, rfl⟩ := List.append_of_mem hk
    have := time_le (x := (t, .act (.callReloadable p.inst))) (y := (t0, .called k)) (a := x) (b := y1) (c := y2 ++ (t', .act (.callReloadable q.inst)) :: z) h.machine (by rw [htr]; simp)
    exact Nat.le_trans u2 this
  · have e2' : s.m.trace = (a' ++ (t3, .called k3) :: b') ++ (t4, .act (.callReloadable q.inst)) :: c' := by rw [e2]; simp
    have htr' : s.m.trace = (x ++ (t, .act (.callReloadable p.inst)) :: y) ++ (t', .act (.callReloadable q.inst)) :: z := by rw [htr]; simp
    obtain ⟨he, _, _⟩ := event_unique e2' htr' rfl rfl (reloadable_unique hcfg h.machine q.inst)
    obtain ⟨y1, y2, rfl⟩ := List.append_of_mem hk
    -- the call that loaded `q` is the last one before, so this one or a later one
    have hle : t0 ≤ t3 := by
      rcases List.append_eq_append_iff.mp (he.trans (show _ = (x ++ (t, .act (.callReloadable p.inst)) :: y1) ++ (t0, .called k) :: y2 by simp)) with ⟨d, h3, h4⟩ | ⟨d, h3, h4⟩
      · cases d with
        | nil => simp at h4; exact Nat.le_of_eq h4.1.1.symm
        | cons g d =>
          exfalso
          simp at h4
          have := n2 (t0, .called k) (by rw [h4.2]; simp)
          cases this
      · cases d with
        | nil => simp at h4; exact Nat.le_of_eq h4.1.1
        | cons g d =>
          simp at h4
          obtain ⟨rfl, rfl⟩ := h4
          have := time_le (x := (t0, .called k)) (y := (t3, .called k3)) (a := x ++ (t, .act (.callReloadable p.inst)) :: y1) (b := d) (c := b' ++ (t4, .act (.callReloadable q.inst)) :: c') h.machine (by rw [e2, h3]; simp)
          exact this
    exact Nat.le_trans hle u3

/-- The `When` of a plugin never changes, however many reloads keep it. -/
theorem C92_kept {cfg : Config} (hcfg : cfg.OK) {s s' : TMachine} (h : TReachable cfg s) (hl : TLater cfg s s') {pm pm' : Manager} (hc : s.m.current = some pm) (hc' : s'.m.current = some pm') {p p' : Plugin}
    (hp : p ∈ pm.plugins) (hp' : p' ∈ pm'.plugins) (he : p'.inst = p.inst) : s'.shown p'.inst = s.shown p.inst := by
  obtain ⟨B, hB⟩ := tinv hcfg h
  obtain ⟨B', hB', hext⟩ := tlater hcfg h hl hB
  have hi := shown_inst hcfg h.machine hc hp
  have hi' := shown_inst hcfg (TLater.reach h hl).machine hc' hp'
  obtain ⟨h1, h2⟩ := hB.cur _ hi
  obtain ⟨w, hw⟩ := Option.isSome_iff_exists.mp h2
  rw [(hB'.cur _ hi').1, he, hext _ _ hw, h1, hw]

end Hotswap

namespace Hotswap

section Examples

open Demo

attribute [local instance] Demo.rt

/-- A sequence of steps of the machine with the field. -/
def trun : TMachine → List TLabel → Option TMachine
  | s, [] => some s
  | s, l :: r => match s.step cfg l with
    | none => none
    | some s' => trun s' r

def tafter (ls : List TLabel) : TMachine := (trun .init ls).getD .init

theorem trun_later {ls : List TLabel} {s0 s s' : TMachine} (h : TLater cfg s0 s) (hr : trun s ls = some s') : TLater cfg s0 s' := by
  induction ls generalizing s with
  | nil => simp [trun] at hr; exact hr ▸ h
  | cons l r ih =>
    unfold trun at hr
    cases hs : s.step cfg l with
    | none => rw [hs] at hr; cases hr
    | some s1 => rw [hs] at hr; exact ih (.step l h hs) hr

theorem tafter_reachable {ls : List TLabel} (h : (trun .init ls).isSome = true) : TReachable cfg (tafter ls) := by
  obtain ⟨s, hs⟩ := Option.isSome_iff_exists.mp h
  refine TLater.reach .init (trun_later .refl (s' := tafter ls) (ls := ls) ?_)
  rw [tafter, hs]; rfl

/-- At time 3 `LoadPlugins` begins; it reads the clock at 5 and takes 20 more. -/
def when1 : List TLabel := [.go (.tick 3), .go (.call .load env1), .go (.tick 2), .clock, .go (.tick 20)] ++ (List.replicate 20 Label.act).map .go ++ [.go .ret]

/-- At time 125 a reload with a changed `app` begins; it keeps `base`, reads the clock at 130 and returns. -/
def when2 : List TLabel := when1 ++ [.go (.tick 100), .go (.call (.reload none) env2), .go .act, .go (.tick 5), .clock, .go (.tick 9)] ++ (List.replicate 15 Label.act).map .go ++ [.go .ret]

theorem when1_reachable : TReachable cfg (tafter when1) := tafter_reachable (by decide +kernel)
theorem when2_reachable : TReachable cfg (tafter when2) := tafter_reachable (by decide +kernel)

/-- The hypotheses of the theorems: `app` (1) and `base` (2) have the same `When`; the reload keeps that of `base`, although it is in a new manager, and gives the new `app` (4) its own, after the reload began at 125. -/
example : (tafter when1).m.currentInsts = [2, 1] ∧ (tafter when1).shown 1 = some 5 ∧ (tafter when1).shown 2 = some 5 ∧ (tafter when2).m.currentInsts = [4, 2] ∧ (tafter when2).shown 2 = some 5 ∧
    (tafter when2).shown 4 = some 130 ∧ (tafter when2).m.trace.filterMap (fun e => match e.2 with | .act (.callReloadable i) => some (e.1, some i) | .called _ => some (e.1, none) | _ => none) =
      [(3, none), (25, some 1), (25, some 2), (125, none), (139, some 4)] := by decide +kernel

/-- The second state comes after the first one. -/
example : ∃ s, trun (tafter when1) [.go (.tick 100), .go (.call (.reload none) env2), .go .act, .go (.tick 5), .clock] = some s ∧ TLater cfg (tafter when1) s := by
  have h : (trun (tafter when1) [.go (.tick 100), .go (.call (.reload none) env2), .go .act, .go (.tick 5), .clock]).isSome = true := by decide +kernel
  obtain ⟨s, hs⟩ := Option.isSome_iff_exists.mp h
  exact ⟨s, hs, trun_later .refl hs⟩

/-- A call that still has a plugin to keep cannot read the clock, and one that has read it cannot keep any more. -/
example : (trun .init (when1 ++ [.go (.call (.reload none) env2), .clock])).isNone = true ∧ (trun .init (when1 ++ [.go (.call (.reload none) env2), .go .act, .clock, .go .act])).isSome = true := by decide +kernel

end Examples

end Hotswap
