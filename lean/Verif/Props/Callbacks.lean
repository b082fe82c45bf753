import Verif.Props.Phases

/-!
# Reload callbacks: C37
-/

namespace Hotswap

section
variable [GoRuntime]

/-- The callbacks that are to be called: in order, up to and including the first one that does not return nil. -/
def untilFailure : List (Nat × Outcome) → List Nat
  | [] => []
  | (n, .ok) :: r => n :: untilFailure r
  | (n, _) :: _ => [n]

/-- The old manager a callback is given: the current one; under static linking nil. -/
def callbackOld (cfg : Config) (m : Machine) : Option Nat :=
  if cfg.static.isSome then none else m.current.map (·.mid)

omit [GoRuntime] in
theorem untilFailure_ok {l : List (Nat × Outcome)} (h : ∀ c ∈ l, c.2 = .ok) : untilFailure l = l.map (·.1) := by
  induction l with
  | nil => rfl
  | cons c r ih =>
    obtain ⟨n, o⟩ := c
    have : o = .ok := h (n, o) (by simp)
    subst this
    simp [untilFailure, ih (fun c hc => h c (by simp [hc]))]

omit [GoRuntime] in
theorem untilFailure_bad {l r : List (Nat × Outcome)} {n : Nat} {o : Outcome} (h : ∀ c ∈ l, c.2 = .ok) (ho : o ≠ .ok) :
    untilFailure (l ++ (n, o) :: r) = (l ++ [(n, o)]).map (·.1) := by
  induction l with
  | nil => cases o <;> simp [untilFailure] at ho ⊢
  | cons c r ih =>
    obtain ⟨n, o⟩ := c
    have : o = .ok := h (n, o) (by simp)
    subst this
    simp [untilFailure, ih (fun c hc => h c (by simp [hc]))]

theorem callbackCalls_append (a b : List Act) : callbackCalls (a ++ b) = callbackCalls a ++ callbackCalls b := List.filter_append ..

theorem callbackCalls_nil {l : List Act} (h : ∀ a ∈ l, a.stage ≠ 6) : callbackCalls l = [] := by
  unfold callbackCalls
  rw [List.filter_eq_nil_iff]
  intro a ha
  have := h a ha
  cases a <;> simp [Act.stage] at this ⊢

theorem callbackCalls_cb {new : Nat} {o : Option Nat} {l : List (Nat × Outcome)} : callbackCalls (cbActs new o l) = cbActs new o l := by
  unfold callbackCalls
  rw [List.filter_eq_self]
  intro a ha
  obtain ⟨c, _, rfl⟩ := List.mem_map.mp ha
  rfl

theorem releases_append (a b : List Act) : releases (a ++ b) = releases a ++ releases b := List.filterMap_append ..

theorem releases_nil {l : List Act} (h : ∀ a ∈ l, a.stage ≠ 7) : releases l = [] := by
  unfold releases
  rw [List.filterMap_eq_nil_iff]
  intro a ha
  have := h a ha
  cases a <;> simp [Act.stage] at this <;> rfl

theorem releases_cleanup {it : Iter} {pm : Manager} : releases (cleanupActs it pm) = (freeOrder it pm).map (·.inst) := by
  unfold releases cleanupActs
  rw [List.filterMap_map]
  induction freeOrder it pm with
  | nil => rfl
  | cons a r ih => simp

/-- How far the callbacks of a call get. -/
theorem View.callbacks {cfg : Config} {env : Env} {k : Kind} {old : Option Manager} {n0 : Nat} {p : Plan} (h : View cfg env k old n0 p) (hk : refused cfg k = false) :
    (callbackCalls p.acts = [] ∧ (∀ e, p.res = .err e → e ≠ .callback) ∧ (publishes p.acts ≠ [] → callbacks cfg env k = [])) ∨
    ((∃ s0 s1, Created cfg env n0 s0 ∧ ∃ s, Finished s1 env.it env.data s ∧ GoodManager p.next s.pm ∧ p.built = s.pm ∧ Origin old n0 s.pm ∧
        (∀ a ∈ s1.acts, a.stage = 1) ∧ s.pm.mid = n0 ∧
        ∃ tail, p.acts = s.acts ++ (untilFailure (callbacks cfg env k)).map (fun n => Act.callback n n0 (if cfg.static.isSome then none else old.map (·.mid))) ++ tail ∧
          (((∀ c ∈ callbacks cfg env k, c.2 = .ok) ∧ (∃ d, p.res = .ok d) ∧ (∀ a ∈ tail, a.stage = 7) ∧ publishes tail = [s.pm] ∧ releases tail = []) ∨
           ((∃ c ∈ callbacks cfg env k, c.2 ≠ .ok) ∧ p.res = .err .callback ∧ tail = cleanupActs env.it s.pm)))) := by
  have hdyn : cfg.static = none ∨ k ≠ .load → cfg.static.isSome = false := by
    rintro (h | h)
    · rw [h]; rfl
    · cases k with
      | load => exact absurd rfl h
      | reload e => exact hk
  have hcl : ∀ (sb : LoadSt) it, (∀ a ∈ sb.acts, a.stage ≤ 5) → callbackCalls (sb.acts ++ cleanupActs it sb.pm) = [] ∧ publishes (sb.acts ++ cleanupActs it sb.pm) = [] := by
    intro sb it hs
    refine ⟨callbackCalls_nil ?_, publishes_nil ?_⟩
    · intro a ha
      rcases List.mem_append.mp ha with ha | ha
      · have := hs a ha; omega
      · rw [cleanup_stage a ha]; decide
    · intro a ha pm hpm
      rcases List.mem_append.mp ha with ha | ha
      · have := hs a ha; rw [hpm] at this; simp [Act.stage] at this
      · obtain ⟨q, _, e⟩ := List.mem_map.mp ha; rw [hpm] at e; cases e
  have hne : ∀ {old f s1 it data} {sb : LoadSt}, FinishFailed s1 it data f sb → BodyLog old n0 sb → errOf f ≠ .callback := by
    intro old f s1 it data sb hf _ he
    cases f with
    | inl e => simp only [errOf] at he; subst he; exact hf.fail
    | inr q => simp [errOf] at he
  cases h with
  | listErr e dyn why acts res =>
    refine .inl ⟨by rw [acts]; rfl, ?_, by rw [acts]; intro h; exact absurd rfl h⟩
    intro e' he he'
    rw [he] at res; cases res; subst he'
    rcases why with ⟨_, h⟩ | ⟨_, _, _, h⟩
    · cases h
    · obtain ⟨l, hl⟩ := whitelistError_eq h; cases hl
  | empty absDir entries dyn dir wl none acts res =>
    refine .inl ⟨(by rw [acts]; cases k <;> rfl), (by intro e h; rw [res] at h; cases h), ?_⟩
    rw [acts]; intro h; exact absurd (by cases k <;> rfl) h
  | escaped ext panics acts res => exact .inl ⟨(by rw [acts]; rfl), (by intro e h; rw [res] at h; cases h), (by rw [acts]; intro h; exact absurd rfl h)⟩
  | staticMissing sps e st kl sel acts res =>
    refine .inl ⟨by rw [acts]; rfl, ?_, by rw [acts]; intro h; exact absurd rfl h⟩
    intro e' he he'
    rw [he] at res; cases res; subst he'
    unfold staticSelection at sel
    split at sel
    · cases sel
    · obtain ⟨n, h1, _⟩ := selectStatic_err sel; cases h1
  | dynErr absDir entries dyn dir wl some s0 sb f cr failed body acts res next built =>
    have := hcl sb env.it body.stage
    refine .inl ⟨by rw [acts]; exact this.1, ?_, by rw [acts, this.2]; intro h; exact absurd rfl h⟩
    intro e he he'
    rw [he] at res; injection res with res; rw [he'] at res
    cases failed with
    | early base why =>
      cases f with
      | inl e => simp only [errOf] at res; subst res; exact why
      | inr q => simp [errOf] at res
    | late s1 done why => exact hne why body res.symm
  | staticErr sps sel st kl hsel s0 sb f cr failed body acts res next built =>
    have := hcl sb env.it body.stage
    refine .inl ⟨by rw [acts]; exact this.1, ?_, by rw [acts, this.2]; intro h; exact absurd rfl h⟩
    intro e he he'
    rw [he] at res; injection res with res; rw [he'] at res
    cases failed with
    | early base why =>
      cases f with
      | inl e => simp only [errOf] at res; subst res; exact why
      | inr q => simp [errOf] at res
    | late s1 done why => exact hne why body res.symm
  | dynCb absDir entries dyn dir wl some s0 s1 s cr done cbs n o rest split bad good acts res next built =>
    have hmid : s.pm.mid = n0 := by rw [done.fin.frame.mid, done.stage1.base.pm]; exact cr.mid
    refine .inr ⟨s0, s1, cr, s, done.fin, by rw [next]; exact done.good, built, done.body.origin, done.stage1.base.stage, hmid, cleanupActs env.it s.pm, ?_, .inr ⟨⟨(n, o), by rw [split]; simp, bad⟩, res, rfl⟩⟩
    rw [acts, split, untilFailure_bad good bad, hdyn dyn]
    simp [cbActs, hmid]
  | staticCb sps sel st kl hsel s0 s1 s cr done cbs n o rest split bad good acts res next built =>
    have hmid : s.pm.mid = n0 := by rw [done.fin.frame.mid, done.stage1.base.pm]; exact cr.mid
    refine .inr ⟨s0, s1, cr, s, done.fin, by rw [next]; exact done.good, built, done.body.origin.weaken, done.stage1.base.stage, hmid, cleanupActs env.it s.pm, ?_, .inr ⟨⟨(n, o), by rw [split]; simp, bad⟩, res, rfl⟩⟩
    rw [acts, split, untilFailure_bad good bad, st]
    simp [cbActs, hmid]
  | dynOk absDir entries dyn dir wl some s0 s1 s d' cr done good details acts res next built =>
    have hmid : s.pm.mid = n0 := by rw [done.fin.frame.mid, done.stage1.base.pm]; exact cr.mid
    refine .inr ⟨s0, s1, cr, s, done.fin, by rw [next]; exact done.good, built, done.body.origin, done.stage1.base.stage, hmid, spawnActs old ++ (.publish s.pm :: countActs k), ?_, .inl ⟨good, ⟨d', res⟩, ?_, ?_, ?_⟩⟩
    · rw [acts, untilFailure_ok good, hdyn dyn]
      simp [cbActs, hmid]
    · intro a ha
      rcases List.mem_append.mp ha with ha | ha
      · exact spawn_stage a ha
      · rcases List.mem_cons.mp ha with rfl | ha
        · rfl
        · exact count_stage a ha
    · cases old <;> cases k <;> rfl
    · cases old <;> cases k <;> rfl
  | staticOk sps sel st kl hsel s0 s1 s d' cr done good details acts res next built =>
    have hmid : s.pm.mid = n0 := by rw [done.fin.frame.mid, done.stage1.base.pm]; exact cr.mid
    refine .inr ⟨s0, s1, cr, s, done.fin, by rw [next]; exact done.good, built, done.body.origin.weaken, done.stage1.base.stage, hmid, [.publish s.pm], ?_, .inl ⟨good, ⟨d', res⟩, ?_, ?_, ?_⟩⟩
    · rw [acts, untilFailure_ok good, st]
      simp [cbActs, hmid]
    · simp [Act.stage]
    · rfl
    · rfl

theorem Finished.stage {s1 : LoadSt} {it : Iter} {data : Nat} {s : LoadSt} (h : Finished s1 it data s) (h1 : ∀ a ∈ s1.acts, a.stage = 1) : ∀ a ∈ s.acts, a.stage ≤ 5 := by
  obtain ⟨v0, hl, _⟩ := h.log
  intro a ha
  rw [hl.acts] at ha
  simp only [List.mem_append, List.mem_map] at ha
  rcases ha with ha | ⟨i, _, rfl⟩ | ⟨i, _, rfl⟩ | ⟨i, _, rfl⟩ | ⟨i, _, rfl⟩ | ha
  · rw [h1 a ha]; decide
  · simp [Act.stage]
  · simp [Act.stage]
  · simp [Act.stage]
  · simp [Act.stage]
  · obtain ⟨q, _, v, rfl⟩ := mem_initActs ha; simp [Act.stage]

/-- **C37.** The callbacks of a call are the option's (number 0) and, for a reload with callback, the extra one (number 1), in this order. Either
none is called and the call does not end with a callback error; or they are called in order up to and including the first that fails, each with the new manager (whose
identity is `m.next`) and the old one, at a moment when the new manager is complete and `OnInit` has been called on all new plugins, in order, and nothing
was published or released. -/
theorem C37_callbacks {cfg : Config} (hcfg : cfg.OK) {m : Machine} (h : Reachable cfg m) (env : Env) {k : Kind} (hk : refused cfg k = false) :
    (callbackCalls (plan cfg env k m.current m.next).acts = [] ∧ (plan cfg env k m.current m.next).res ≠ .err .callback) ∨
    ∃ pre post, (plan cfg env k m.current m.next).acts = pre ++
        (untilFailure ((if cfg.hasCallback then [(0, env.cbResult)] else []) ++ (match k with | .reload (some o) => [(1, o)] | _ => []))).map
          (fun n => Act.callback n m.next (callbackOld cfg m)) ++ post ∧
      callbackCalls pre = [] ∧ callbackCalls post = [] ∧ publishes pre = [] ∧ releases pre = [] ∧
      onInits pre = (((plan cfg env k m.current m.next).built.plugins.filter (isNew m.current)).map (·.inst)) ∧ onInits post = [] ∧
      GoodManager (plan cfg env k m.current m.next).next (plan cfg env k m.current m.next).built ∧
      (plan cfg env k m.current m.next).built.mid = m.next := by
  have hv := view hcfg h env k
  have hgood := sound_old hcfg h
  generalize plan cfg env k m.current m.next = p at hv ⊢
  rcases hv.callbacks hk with ⟨h1, h2, _⟩ | ⟨s0, s1, cr, s, hf, hg, hb, ho, hs1, hmid, tail, hacts, htail⟩
  · exact .inl ⟨h1, fun h => h2 _ h rfl⟩
  · have hstage := hf.stage hs1
    obtain ⟨v0, hl, _⟩ := hf.log
    have ht7 : ∀ a ∈ tail, a.stage = 7 := by
      rcases htail with ⟨_, _, h, _⟩ | ⟨_, _, rfl⟩
      · exact h
      · exact cleanup_stage
    refine .inr ⟨s.acts, tail, hacts, callbackCalls_nil (fun a ha => ?_), callbackCalls_nil (fun a ha => ?_), publishes_nil (fun a ha pm hpm => ?_), releases_nil (fun a ha => ?_), ?_, onInits_nil (fun a ha => ?_), by rw [hb]; exact hg, by rw [hb]; exact hmid⟩
    · have := hstage a ha; omega
    · rw [ht7 a ha]; decide
    · have := hstage a ha; rw [hpm] at this; simp [Act.stage] at this
    · have := hstage a ha; omega
    · rw [hb]
      have : s.pm.plugins.filter (isNew m.current) = freshOnes s.pm.ordered :=
        isNew_filter hgood ho (fun q hq => hf.ok.perm.mem_iff.mp hq)
      rw [this]
      exact (hl.onLoads hs1).2
    · rw [ht7 a ha]; decide

/-- **C37.** When callbacks are called: if all of them return nil the call publishes the new manager and succeeds; if one does not, the call fails, nothing
is published, and all plugins of the new manager are released, dependents before dependencies. -/
theorem C37_outcome {cfg : Config} (hcfg : cfg.OK) {m : Machine} (h : Reachable cfg m) (env : Env) {k : Kind} (hk : refused cfg k = false)
    (hc : callbackCalls (plan cfg env k m.current m.next).acts ≠ []) :
    ((∀ c ∈ callbacks cfg env k, c.2 = .ok) ∧ (∃ d, (plan cfg env k m.current m.next).res = .ok d) ∧
        publishes (plan cfg env k m.current m.next).acts = [(plan cfg env k m.current m.next).built] ∧ releases (plan cfg env k m.current m.next).acts = []) ∨
    ((∃ c ∈ callbacks cfg env k, c.2 ≠ .ok) ∧ (plan cfg env k m.current m.next).res = .err .callback ∧
        publishes (plan cfg env k m.current m.next).acts = [] ∧
        releases (plan cfg env k m.current m.next).acts = ((plan cfg env k m.current m.next).built.plugins.reverse).map (·.inst)) := by
  have hv := view hcfg h env k
  generalize plan cfg env k m.current m.next = p at hv hc ⊢
  rcases hv.callbacks hk with ⟨h1, _⟩ | ⟨s0, s1, cr, s, hf, hg, hb, ho, hs1, hmid, tail, hacts, htail⟩
  · exact absurd h1 hc
  · have hstage := hf.stage hs1
    have h1 : publishes s.acts = [] := publishes_nil (fun a ha pm hpm => by have := hstage a ha; rw [hpm] at this; simp [Act.stage] at this)
    have h2 : releases s.acts = [] := releases_nil (fun a ha => by have := hstage a ha; omega)
    have h3 : ∀ (l : List Nat) o, publishes (l.map (fun n => Act.callback n m.next o)) = [] := by
      intro l o; refine publishes_nil (fun a ha pm hpm => ?_)
      obtain ⟨n, _, e⟩ := List.mem_map.mp ha; rw [hpm] at e; cases e
    have h4 : ∀ (l : List Nat) o, releases (l.map (fun n => Act.callback n m.next o)) = [] := by
      intro l o; refine releases_nil (fun a ha => ?_)
      obtain ⟨n, _, rfl⟩ := List.mem_map.mp ha; simp [Act.stage]
    rcases htail with ⟨hall, hres, h7, hpub, hrel⟩ | ⟨hbad, hres, rfl⟩
    · refine .inl ⟨hall, hres, ?_, ?_⟩
      · rw [hacts, publishes_append, publishes_append, h1, h3, hpub, hb]; rfl
      · rw [hacts, releases_append, releases_append, h2, h4, hrel]; rfl
    · refine .inr ⟨hbad, hres, ?_, ?_⟩
      · rw [hacts, publishes_append, publishes_append, h1, h3]
        refine publishes_nil (fun a ha pm hpm => ?_)
        obtain ⟨q, _, e⟩ := List.mem_map.mp ha; rw [hpm] at e; cases e
      · rw [hacts, releases_append, releases_append, h2, h4, releases_cleanup, hb]
        unfold freeOrder Manager.plugins
        split
        · rename_i hnil
          have := hf.ok.perm
          rw [hnil] at this
          have hv : s.pm.pluginMap.vals = [] := by simpa using this.symm
          have hp := (GoMap.rangeKV_vals_perm env.it .free s.pm.pluginMap)
          rw [hv] at hp
          have : (s.pm.pluginMap.rangeKV env.it .free).map Prod.snd = [] := by simpa using hp
          rw [this, hnil]; rfl
        · rfl

/-- **C37.** A call that publishes has called all its callbacks, and all of them returned nil. -/
theorem C37_published {cfg : Config} (hcfg : cfg.OK) {m : Machine} (h : Reachable cfg m) (env : Env) {k : Kind} (hk : refused cfg k = false)
    (hp : publishes (plan cfg env k m.current m.next).acts ≠ []) :
    (∀ c ∈ callbacks cfg env k, c.2 = .ok) ∧
    callbackCalls (plan cfg env k m.current m.next).acts = (callbacks cfg env k).map (fun c => Act.callback c.1 m.next (callbackOld cfg m)) := by
  have hv := view hcfg h env k
  generalize plan cfg env k m.current m.next = p at hv hp ⊢
  rcases hv.callbacks hk with ⟨h1, _, h3⟩ | ⟨s0, s1, cr, s, hf, hg, hb, ho, hs1, hmid, tail, hacts, htail⟩
  · rw [h1, h3 hp]; simp
  · have hstage := hf.stage hs1
    have h1 : callbackCalls s.acts = [] := callbackCalls_nil (fun a ha => by have := hstage a ha; omega)
    have h3 : ∀ (l : List Nat) o, callbackCalls (l.map (fun n => Act.callback n m.next o)) = l.map (fun n => Act.callback n m.next o) := by
      intro l o
      unfold callbackCalls
      rw [List.filter_eq_self]
      intro a ha
      obtain ⟨c, _, rfl⟩ := List.mem_map.mp ha; rfl
    rcases htail with ⟨hall, hres, h7, hpub, hrel⟩ | ⟨hbad, hres, rfl⟩
    · refine ⟨hall, ?_⟩
      rw [hacts, callbackCalls_append, callbackCalls_append, h1, h3, callbackCalls_nil (fun a ha => by rw [h7 a ha]; decide), untilFailure_ok hall]
      simp [callbackOld]
    · exfalso
      refine hp ?_
      rw [hacts]
      refine publishes_nil (fun a ha pm hpm => ?_)
      subst hpm
      rcases List.mem_append.mp ha with ha | ha
      · rcases List.mem_append.mp ha with ha | ha
        · have := hstage _ ha; simp [Act.stage] at this
        · simp at ha
      · simp [cleanupActs] at ha

end

section Examples
open Demo
attribute [local instance] Demo.rt

/-- C37: both callbacks are called with the new manager (3) and the old one (0), and the call succeeds. -/
example : Reachable cfg m1 ∧ cfg.OK ∧ refused cfg (.reload (some .ok)) = false ∧ publishes (plan cfg env2 (.reload (some .ok)) m1.current m1.next).acts ≠ [] ∧
    (callbackCalls (plan cfg env2 (.reload (some .ok)) m1.current m1.next).acts).map (fun a => match a with | .callback n new old => (n, new, old) | _ => (9, 9, none)) =
      [(0, 3, some 0), (1, 3, some 0)] :=
  ⟨m1_reachable, cfg_ok, rfl, by simp only [ne_eq, ← List.isEmpty_iff, Bool.not_eq_true]; decide +kernel, by decide +kernel⟩

/-- C37: the option's callback panics; the extra one is not called, nothing is published, and both plugins are released. -/
example : error? (plan cfg { env2 with cbResult := .panics } (.reload (some .ok)) m1.current m1.next).res = some .callback ∧
    (callbackCalls (plan cfg { env2 with cbResult := .panics } (.reload (some .ok)) m1.current m1.next).acts).length = 1 ∧
    releases (plan cfg { env2 with cbResult := .panics } (.reload (some .ok)) m1.current m1.next).acts = [4, 2] := by decide +kernel

end Examples
end Hotswap
