import Verif.Proofs.Views
import Mathlib.Logic.Relation
import Verif.Props.Demo

/-!
# Order and phases of a load: C01, C02, C04, C05, C06, C37

Theorems about the actions of one call are stated for `plan cfg env k m.current m.next`, the sequential program of the call `k`
made in the reachable state `m` with environment `env`; `C38_call_executes_plan` says that this is what the machine executes under every
schedule, and `C38_running_call` below says the same of calls that are still running.
-/

namespace Hotswap

section
variable [GoRuntime]

/-! ### C01 -/

/-- **C01.** `Plugins()` of every published manager lists exactly the plugins that `FindPlugin` finds, each once, and every plugin after
all plugins named in its `Deps`. -/
theorem C01_plugins_topological {cfg : Config} (hcfg : cfg.OK) {m : Machine} (h : Reachable cfg m) {t : Nat} {pm : Manager}
    (he : (t, Ev.act (.publish pm)) ∈ m.trace) :
    (∀ name p, pm.findPlugin name = some p → p ∈ pm.plugins) ∧
    (∀ p ∈ pm.plugins, pm.findPlugin p.name = some p) ∧
    (pm.plugins.map (fun p => name2key p.name)).Nodup ∧
    (∀ before p after, pm.plugins = before ++ p :: after → ∀ d ∈ p.deps, ∃ q ∈ before, pm.findPlugin d = some q) := by
  have hg := ((delayInv hcfg h).published t pm he).2
  refine ⟨?_, ?_, ?_, hg.topo⟩
  · intro name p hp
    exact hg.ordered.mem_iff.mpr (GoMap.mem_vals.mpr ⟨_, hp⟩)
  · intro p hp
    obtain ⟨k, hk⟩ := GoMap.mem_vals.mp (hg.ordered.mem_iff.mp hp)
    have := hg.keyed k p hk
    unfold Manager.findPlugin
    rw [this]; exact hk
  · have hp : (pm.plugins.map (fun p => name2key p.name)).Perm (pm.pluginMap.entries.map Prod.fst) := by
      have h1 := hg.ordered.map (fun p => name2key p.name)
      have h2 : pm.pluginMap.vals.map (fun p => name2key p.name) = pm.pluginMap.entries.map Prod.fst := by
        unfold GoMap.vals
        rw [List.map_map]
        refine List.map_congr_left ?_
        intro e he
        exact hg.keyed e.1 e.2 (GoMap.get?_eq_some.mpr he)
      rw [h2] at h1; exact h1
    exact hp.symm.nodup pm.pluginMap.nodup

/-- **C01**, for what `Current()` returns. -/
theorem C01_current_topological {cfg : Config} (hcfg : cfg.OK) {m : Machine} (h : Reachable cfg m) {pm : Manager} (he : m.current = some pm) :
    (∀ name p, pm.findPlugin name = some p → p ∈ pm.plugins) ∧
    (∀ p ∈ pm.plugins, pm.findPlugin p.name = some p) ∧
    (pm.plugins.map (fun p => name2key p.name)).Nodup ∧
    (∀ before p after, pm.plugins = before ++ p :: after → ∀ d ∈ p.deps, ∃ q ∈ before, pm.findPlugin d = some q) := by
  rw [current_eq h] at he
  have hm : pm ∈ published m.trace := List.mem_of_getLast? he
  obtain ⟨⟨t, e⟩, h1, h2⟩ := List.mem_filterMap.mp hm
  cases e with
  | act x =>
    cases x with
    | publish pm' => simp at h2; subst h2; exact C01_plugins_topological hcfg h h1
    | _ => simp at h2
  | _ => simp at h2

/-! ### C02 -/

/-- C02 for any call that finds a good manager. -/
theorem phases_of_good {cfg : Config} (hcfg : cfg.OK) {m : Machine} (h : ∀ om, m.current = some om → SoundManager m.next om) (env : Env) {k : Kind} (hk : refused cfg k = false) :
    (plan cfg env k m.current m.next).acts.Pairwise (fun a b => a.stage ≤ b.stage) := by
  have tail : ∀ (pre tl : List Act), pre.Pairwise (fun a b => a.stage ≤ b.stage) → (∀ a ∈ pre, a.stage ≤ 6) → (∀ a ∈ tl, a.stage = 7) →
      (pre ++ tl).Pairwise (fun a b => a.stage ≤ b.stage) := by
    intro pre tl h1 h2 h3
    exact pairwise_stage_append 6 h1 (pairwise_stage_const 7 h3) h2 (fun a ha => by rw [h3 a ha]; decide)
  cases (plan_view (env := env) (k := k) (n0 := m.next) hcfg h).shape hk with
  | failed pre rel acts res log stage =>
    rw [acts]
    exact tail _ _ log.sorted stage (fun a ha => by obtain ⟨i, _, rfl⟩ := List.mem_map.mp ha; rfl)
  | ok pre acts d res log stage =>
    rw [acts]
    refine tail _ _ log.sorted stage ?_
    intro a ha
    rcases List.mem_append.mp ha with ha | ha
    · split at ha
      · simp at ha
      · exact spawn_stage a ha
    · rcases List.mem_cons.mp ha with rfl | ha
      · rfl
      · exact count_stage a ha
  | noop acts => rw [acts]; exact pairwise_stage_const 7 count_stage

/-- **C02.** The actions of every call, successful or not, come in the order of the phases: opening plugins, `Reloadable` and `Export` (1), `Import` (2),
`OnLoad` (3), vault (4), `OnInit` (5), reload callbacks (6), publication or the release of the plugins of the failed load (7). -/
theorem C02_phases {cfg : Config} (hcfg : cfg.OK) {m : Machine} (h : Reachable cfg m) (env : Env) {k : Kind} (hk : refused cfg k = false) :
    (plan cfg env k m.current m.next).acts.Pairwise (fun a b => a.stage ≤ b.stage) :=
  phases_of_good hcfg (fun om ho => ((inv hcfg h).cur om ho).1) env hk

/-- **C02**, at the level of histories: whatever other goroutines do in between, the actions of a call that has returned are in phase
order. -/
theorem C02_phases_history {cfg : Config} (hcfg : cfg.OK) {m : Machine} (h : Reachable cfg m) {a b c : History} {t0 t1 : Nat} {k k' : Kind} {res : Result}
    (he : m.trace = a ++ (t0, .called k) :: (b ++ (t1, .returned k' res) :: c)) (hb : ∀ e ∈ b, e.2.isCall = false) :
    (actsOf b).Pairwise (fun a b => a.stage ≤ b.stage) := by
  obtain ⟨_, m0, env, _, hl⟩ := completed h he hb
  have := hl.acts
  rw [List.append_nil] at this
  rw [this]
  exact C02_phases hcfg hl.reach env hl.accepted

/-- **C38**, for a call that is still running: it has performed an initial part of the actions of its plan. -/
theorem C38_running_call {cfg : Config} {m : Machine} (h : Reachable cfg m) {r : Running} (hr : m.running = some r) :
    ∃ m0 env t b, Reachable cfg m0 ∧ m.trace = m0.trace ++ (t, .called r.kind) :: b ∧ (∀ e ∈ b, e.2.isCall = false) ∧
      actsOf b ++ r.todo = (plan cfg env r.kind m0.current m0.next).acts ∧ r.res = (plan cfg env r.kind m0.current m0.next).res := by
  obtain ⟨m0, env, t, b, hl⟩ := link h r hr
  exact ⟨m0, env, t, b, hl.reach, hl.trace, hl.only, hl.acts, hl.res_eq⟩

/-! ### C04 -/

theorem sound_old {cfg : Config} (hcfg : cfg.OK) {m : Machine} (h : Reachable cfg m) : ∀ om, m.current = some om → SoundManager m.next om :=
  fun om ho => ((inv hcfg h).cur om ho).1

/-- The order of the plugins of a load that got beyond the import phase. -/
theorem Body.order {cfg : Config} {env : Env} {old : Option Manager} {n0 : Nat} {p : Plan} {s0 s1 sb : LoadSt} {im : List Str} {ol lf lt oi : List Plugin} {v0 : Vault}
    (h : Body cfg env old n0 p s0 s1 sb im ol lf lt oi v0) (hne : sb.pm.ordered ≠ []) : OrderedOK sb.pm.pluginMap sb.pm.ordered := by
  rcases h.frame.order with h | h
  · exact absurd h hne
  · exact h

/-- **C04.** When `OnLoad` is called on an instance: it belongs to a new plugin of the manager under construction, and every dependency of this
plugin is present and, if it is new too, has had its `OnLoad` called and returning nil before. -/
theorem C04_onload_after_deps {cfg : Config} (hcfg : cfg.OK) {m : Machine} (h : Reachable cfg m) (env : Env) {k : Kind}
    {pre post : List Act} {i data : Nat} (he : (plan cfg env k m.current m.next).acts = pre ++ .callOnLoad i data :: post) :
    data = env.data ∧ ∃ P ∈ (plan cfg env k m.current m.next).built.plugins, P.inst = i ∧ isNew m.current P = true ∧
      ∀ d ∈ P.deps, ∃ q, (plan cfg env k m.current m.next).built.findPlugin d = some q ∧
        (isNew m.current q = true → .callOnLoad q.inst env.data ∈ pre ∧ q.code.onLoad env.data = .ok) := by
  have hv := view hcfg h env k
  generalize plan cfg env k m.current m.next = p at he hv ⊢
  rcases hv.body with ⟨hst, _⟩ | ⟨s0, s1, sb, im, ol, lf, lt, oi, v0, hb⟩
  · have := hst (.callOnLoad i data) (by rw [he]; simp)
    simp [Act.stage] at this
  · obtain ⟨tl, hacts, htl⟩ := hb.acts
    have hl := hb.log
    rw [hacts, hl.acts] at he
    have hA : Act.callOnLoad i data ∉ s1.acts ++ (im.filterMap (importInst s1.pm.pluginMap)).map Act.callImport := by
      intro hm
      rcases List.mem_append.mp hm with hm | hm
      · have := hb.stage1 _ hm; simp [Act.stage] at this
      · simp at hm
    have hC : Act.callOnLoad i data ∉ lf.map (fun p => Act.callLiveFuncs p.inst) ++ (lt.map (fun p => Act.callLiveTypes p.inst) ++ initActs s1.pm.mid v0 oi) ++ tl := by
      intro hm
      simp only [List.mem_append] at hm
      rcases hm with (hm | hm | hm) | hm
      · simp at hm
      · simp at hm
      · obtain ⟨_, _, _, hx⟩ := mem_initActs hm; cases hx
      · have := htl _ hm; simp [Act.stage] at this
    obtain ⟨b1, b2, hB, hpre, _⟩ := split_mid (B := ol.map (fun p => Act.callOnLoad p.inst env.data)) (by rw [← he]; simp only [List.append_assoc]) hA hC
    obtain ⟨l1, P, l2, hol, rfl, hP, rfl⟩ := map_split hB
    simp only [Act.callOnLoad.injEq] at hP
    obtain ⟨rfl, rfl⟩ := hP
    obtain ⟨r, hr⟩ := hl.ol_pre
    rw [hol, List.append_assoc, List.cons_append] at hr
    have hne : sb.pm.ordered ≠ [] := by intro h0; rw [h0] at hr; simp [freshOnes] at hr
    have ho := hb.order hne
    obtain ⟨before, after, hord, hb1, hb2, hu⟩ := filter_split hr.symm
    have hmem : ∀ q ∈ sb.pm.ordered, ∃ k, sb.pm.pluginMap.get? k = some q := fun q hq => GoMap.mem_vals.mp (ho.perm.mem_iff.mp hq)
    have hnew : ∀ q k, sb.pm.pluginMap.get? k = some q → isNew m.current q = !q.unchanged := fun q k hk => isNew_iff (sound_old hcfg h) hb.origin hk
    obtain ⟨kP, hkP⟩ := hmem P (by rw [hord]; simp)
    refine ⟨rfl, P, by rw [hb.built]; change P ∈ sb.pm.ordered; rw [hord]; simp, rfl, by rw [hnew P kP hkP]; exact hu, ?_⟩
    intro d hd
    obtain ⟨q, hq, hget⟩ := ho.topo before P after hord d hd
    refine ⟨q, by rw [hb.built]; exact hget, ?_⟩
    intro hqn
    rw [hnew q _ hget] at hqn
    have hql : q ∈ l1 := by rw [← hb1]; exact List.mem_filter.mpr ⟨hq, hqn⟩
    refine ⟨?_, ?_⟩
    · rw [hpre]; exact List.mem_append_right _ (List.mem_map.mpr ⟨q, hql, rfl⟩)
    · refine hl.ol_ok q ?_
      rw [hol]
      obtain ⟨x, y, hxy⟩ := List.append_of_mem hql
      rw [List.dropLast_append_of_ne_nil (by simp)]
      exact List.mem_append_left _ hql

theorem initActs_split {mid : Nat} {v : Vault} {l : List Plugin} {b1 b2 : List Act} {a : Act} (h : initActs mid v l = b1 ++ a :: b2) :
    ∃ l1 P l2, l = l1 ++ P :: l2 ∧ b1 = initActs mid v l1 ∧ a = .callOnInit P.inst mid (vaultAfter v l1) := by
  induction l generalizing v b1 with
  | nil => simp [initActs] at h
  | cons p r ih =>
    cases b1 with
    | nil =>
      simp only [initActs, List.nil_append, List.cons.injEq] at h
      exact ⟨[], p, r, rfl, rfl, h.1.symm⟩
    | cons b b1 =>
      simp only [initActs, List.cons_append, List.cons.injEq] at h
      obtain ⟨l1, P, l2, h1, h2, h3⟩ := ih h.2
      exact ⟨p :: l1, P, l2, by rw [h1]; rfl, by rw [h2, ← h.1]; rfl, h3⟩

theorem mem_initActs_of {mid : Nat} {v : Vault} {l : List Plugin} {q : Plugin} (hq : q ∈ l) (hok : initOK v l) :
    ∃ v', Act.callOnInit q.inst mid v' ∈ initActs mid v l ∧ (q.code.onInit v').1 = .ok := by
  induction l generalizing v with
  | nil => cases hq
  | cons p r ih =>
    rcases List.mem_cons.mp hq with rfl | hq
    · exact ⟨v, by simp [initActs], hok.1⟩
    · obtain ⟨v', h1, h2⟩ := ih hq hok.2
      exact ⟨v', by simp [initActs, h1], h2⟩

/-- **C04.** The same for `OnInit`. -/
theorem C04_oninit_after_deps {cfg : Config} (hcfg : cfg.OK) {m : Machine} (h : Reachable cfg m) (env : Env) {k : Kind}
    {pre post : List Act} {i mid : Nat} {v : Vault} (he : (plan cfg env k m.current m.next).acts = pre ++ .callOnInit i mid v :: post) :
    mid = (plan cfg env k m.current m.next).built.mid ∧
    ∃ P ∈ (plan cfg env k m.current m.next).built.plugins, P.inst = i ∧ isNew m.current P = true ∧
      ∀ d ∈ P.deps, ∃ q, (plan cfg env k m.current m.next).built.findPlugin d = some q ∧
        (isNew m.current q = true → ∃ v', .callOnInit q.inst mid v' ∈ pre ∧ (q.code.onInit v').1 = .ok) := by
  have hv := view hcfg h env k
  generalize plan cfg env k m.current m.next = p at he hv ⊢
  rcases hv.body with ⟨hst, _⟩ | ⟨s0, s1, sb, im, ol, lf, lt, oi, v0, hb⟩
  · have := hst (.callOnInit i mid v) (by rw [he]; simp)
    simp [Act.stage] at this
  · obtain ⟨tl, hacts, htl⟩ := hb.acts
    have hl := hb.log
    rw [hacts, hl.acts] at he
    have hA : Act.callOnInit i mid v ∉ s1.acts ++ ((im.filterMap (importInst s1.pm.pluginMap)).map Act.callImport ++ (ol.map (fun p => Act.callOnLoad p.inst env.data)
        ++ (lf.map (fun p => Act.callLiveFuncs p.inst) ++ lt.map (fun p => Act.callLiveTypes p.inst)))) := by
      intro hm
      simp only [List.mem_append] at hm
      rcases hm with hm | hm | hm | hm | hm
      · have := hb.stage1 _ hm; simp [Act.stage] at this
      all_goals simp at hm
    have hC : Act.callOnInit i mid v ∉ tl := by
      intro hm
      have := htl _ hm; simp [Act.stage] at this
    obtain ⟨b1, b2, hB, hpre, _⟩ := split_mid (B := initActs s1.pm.mid v0 oi) (by rw [← he]; simp only [List.append_assoc]) hA hC
    obtain ⟨l1, P, l2, hol, rfl, hP⟩ := initActs_split hB
    simp only [Act.callOnInit.injEq] at hP
    obtain ⟨rfl, rfl, rfl⟩ := hP
    obtain ⟨r, hr⟩ := hl.oi_pre
    rw [hol, List.append_assoc, List.cons_append] at hr
    have hne : sb.pm.ordered ≠ [] := by intro h0; rw [h0] at hr; simp [freshOnes] at hr
    have ho := hb.order hne
    obtain ⟨before, after, hord, hb1, hb2, hu⟩ := filter_split hr.symm
    have hmem : ∀ q ∈ sb.pm.ordered, ∃ k, sb.pm.pluginMap.get? k = some q := fun q hq => GoMap.mem_vals.mp (ho.perm.mem_iff.mp hq)
    have hnew : ∀ q k, sb.pm.pluginMap.get? k = some q → isNew m.current q = !q.unchanged := fun q k hk => isNew_iff (sound_old hcfg h) hb.origin hk
    obtain ⟨kP, hkP⟩ := hmem P (by rw [hord]; simp)
    refine ⟨by rw [hb.built, hb.frame.mid], P, by rw [hb.built]; change P ∈ sb.pm.ordered; rw [hord]; simp, rfl, by rw [hnew P kP hkP]; exact hu, ?_⟩
    intro d hd
    obtain ⟨q, hq, hget⟩ := ho.topo before P after hord d hd
    refine ⟨q, by rw [hb.built]; exact hget, ?_⟩
    intro hqn
    rw [hnew q _ hget] at hqn
    have hql : q ∈ l1 := by rw [← hb1]; exact List.mem_filter.mpr ⟨hq, hqn⟩
    have hok : initOK v0 l1 := by
      have := hl.oi_ok
      rw [hol, List.dropLast_append_of_ne_nil (by simp), initOK_append] at this
      exact this.1
    obtain ⟨v', h1, h2⟩ := mem_initActs_of (mid := s1.pm.mid) hql hok
    exact ⟨v', by rw [hpre]; exact List.mem_append_right _ h1, h2⟩

theorem onLoads_append (a b : List Act) : onLoads (a ++ b) = onLoads a ++ onLoads b := List.filterMap_append ..
theorem onInits_append (a b : List Act) : onInits (a ++ b) = onInits a ++ onInits b := List.filterMap_append ..

theorem onLoads_nil {l : List Act} (h : ∀ a ∈ l, a.stage ≠ 3) : onLoads l = [] := by
  unfold onLoads
  rw [List.filterMap_eq_nil_iff]
  intro a ha
  have := h a ha
  cases a <;> simp [Act.stage] at this <;> rfl

theorem onInits_nil {l : List Act} (h : ∀ a ∈ l, a.stage ≠ 5) : onInits l = [] := by
  unfold onInits
  rw [List.filterMap_eq_nil_iff]
  intro a ha
  have := h a ha
  cases a <;> simp [Act.stage] at this <;> rfl

theorem onLoads_map {l : List Plugin} {data : Nat} : onLoads (l.map (fun p => Act.callOnLoad p.inst data)) = l.map (·.inst) := by
  unfold onLoads
  induction l with
  | nil => rfl
  | cons p r ih => simp [ih]

theorem onInits_init {mid : Nat} {v : Vault} {l : List Plugin} : onInits (initActs mid v l) = l.map (·.inst) := by
  induction l generalizing v with
  | nil => rfl
  | cons p r ih =>
    have := ih (v := (p.code.onInit v).2)
    unfold onInits at *
    simp [initActs, this]

theorem FinishLog.onLoads {s0 : LoadSt} {it : Iter} {data : Nat} {s : LoadSt} {im : List Str} {ol lf lt oi : List Plugin} {v0 : Vault}
    (h : FinishLog s0 it data s im ol lf lt oi v0) (h1 : ∀ a ∈ s0.acts, a.stage = 1) :
    onLoads s.acts = ol.map (·.inst) ∧ onInits s.acts = oi.map (·.inst) := by
  rw [h.acts]
  simp only [onLoads_append, onInits_append, onLoads_map, onInits_init]
  have e0 : ∀ a ∈ s0.acts, a.stage ≠ 3 ∧ a.stage ≠ 5 := fun a ha => by rw [h1 a ha]; decide
  have e1 : ∀ a ∈ (im.filterMap (importInst s0.pm.pluginMap)).map Act.callImport, a.stage ≠ 3 ∧ a.stage ≠ 5 := by
    intro a ha; obtain ⟨_, _, rfl⟩ := List.mem_map.mp ha; simp [Act.stage]
  have e2 : ∀ a ∈ ol.map (fun p => Act.callOnLoad p.inst data), a.stage ≠ 5 := by
    intro a ha; obtain ⟨_, _, rfl⟩ := List.mem_map.mp ha; simp [Act.stage]
  have e3 : ∀ a ∈ lf.map (fun p => Act.callLiveFuncs p.inst), a.stage ≠ 3 ∧ a.stage ≠ 5 := by
    intro a ha; obtain ⟨_, _, rfl⟩ := List.mem_map.mp ha; simp [Act.stage]
  have e4 : ∀ a ∈ lt.map (fun p => Act.callLiveTypes p.inst), a.stage ≠ 3 ∧ a.stage ≠ 5 := by
    intro a ha; obtain ⟨_, _, rfl⟩ := List.mem_map.mp ha; simp [Act.stage]
  have e5 : ∀ a ∈ initActs s0.pm.mid v0 oi, a.stage ≠ 3 := by
    intro a ha; obtain ⟨_, _, _, rfl⟩ := mem_initActs ha; simp [Act.stage]
  rw [onLoads_nil (fun a ha => (e0 a ha).1), onLoads_nil (fun a ha => (e1 a ha).1), onLoads_nil (fun a ha => (e3 a ha).1),
    onLoads_nil (fun a ha => (e4 a ha).1), onLoads_nil e5,
    onInits_nil (fun a ha => (e0 a ha).2), onInits_nil (fun a ha => (e1 a ha).2), onInits_nil e2, onInits_nil (fun a ha => (e3 a ha).2),
    onInits_nil (fun a ha => (e4 a ha).2)]
  simp

/-- **C04.** In a call that publishes a manager, `OnLoad` is called on exactly the new plugins of the manager, once each, in the order of
`Plugins()`, and so is `OnInit`; kept plugins get neither. -/
theorem C04_success {cfg : Config} (hcfg : cfg.OK) {m : Machine} (h : Reachable cfg m) (env : Env) {k : Kind} (hk : refused cfg k = false) {pm : Manager}
    (hp : .publish pm ∈ (plan cfg env k m.current m.next).acts) :
    onLoads (plan cfg env k m.current m.next).acts = (pm.plugins.filter (isNew m.current)).map (·.inst) ∧
    onInits (plan cfg env k m.current m.next).acts = (pm.plugins.filter (isNew m.current)).map (·.inst) := by
  have hv := view hcfg h env k
  generalize plan cfg env k m.current m.next = p at hp hv ⊢
  obtain ⟨rfl, s0, s1, s, d, hs⟩ := hv.published hk hp
  obtain ⟨o, hacts⟩ := hs.acts
  obtain ⟨v0, hl, _⟩ := hs.fin.log
  obtain ⟨e1, e2⟩ := hl.onLoads hs.stage1
  have hf : (p.built.plugins).filter (isNew m.current) = freshOnes s.pm.ordered := by
    rw [hs.built]
    exact isNew_filter (sound_old hcfg h) hs.origin (fun q hq => hs.fin.ok.perm.mem_iff.mp hq)
  have htl : ∀ a ∈ cbActs s.pm.mid o (callbacks cfg env k) ++ ((if cfg.static.isSome then [] else spawnActs m.current) ++ (.publish s.pm :: countActs k)), 6 ≤ a.stage := by
    intro a ha
    rcases List.mem_append.mp ha with ha | ha
    · rw [mem_cbActs ha]; exact Nat.le_refl _
    · rcases List.mem_append.mp ha with ha | ha
      · split at ha
        · simp at ha
        · rw [spawn_stage a ha]; decide
      · rcases List.mem_cons.mp ha with rfl | ha
        · simp [Act.stage]
        · rw [count_stage a ha]; decide
  rw [hacts, hf, onLoads_append, onInits_append, e1, e2, onLoads_nil (fun a ha => by have := htl a ha; omega), onInits_nil (fun a ha => by have := htl a ha; omega)]
  simp

/-! ### C05 -/

/-- A dependency cycle through the plugin `p` of the map. -/
def OnCycle (pm : Manager) (p : Plugin) : Prop := Relation.TransGen (fun a b => ∃ d ∈ a.deps, pm.findPlugin d = some b) p p

theorem topo_before {pm : Manager} (ht : Topological pm.pluginMap pm.ordered)
    (huniq : ∀ a b, a ∈ pm.ordered → b ∈ pm.ordered → name2key a.name = name2key b.name → a = b)
    (hnd : pm.ordered.Nodup) {p q : Plugin} (hp : p ∈ pm.ordered) (h : Relation.TransGen (fun a b => ∃ d ∈ a.deps, pm.findPlugin d = some b) p q) :
    ∀ before after, pm.ordered = before ++ p :: after → q ∈ before := by
  induction h with
  | single hd =>
    intro before after he
    obtain ⟨d, hd, hg⟩ := hd
    obtain ⟨q', hq', hg'⟩ := ht before p after he d hd
    have : pm.pluginMap.get? (name2key d) = some _ := hg
    rw [this] at hg'
    cases hg'; exact hq'
  | tail _ hd ih =>
    intro before after he
    rename_i b c _
    have hb := ih before after he
    obtain ⟨d, hd, hg⟩ := hd
    obtain ⟨b1, b2, hbb⟩ := List.append_of_mem hb
    have he' : pm.ordered = b1 ++ b :: (b2 ++ p :: after) := by rw [he, hbb]; simp
    obtain ⟨q', hq', hg'⟩ := ht b1 b _ he' d hd
    have : pm.pluginMap.get? (name2key d) = some _ := hg
    rw [this] at hg'
    cases hg'
    rw [hbb]; exact List.mem_append_left _ hq'

/-- **C05.** A load whose dependency relation has a cycle fails: a published manager has none. -/
theorem C05_published_acyclic {cfg : Config} (hcfg : cfg.OK) {m : Machine} (h : Reachable cfg m) {t : Nat} {pm : Manager}
    (he : (t, Ev.act (.publish pm)) ∈ m.trace) : ∀ p ∈ pm.plugins, ¬ OnCycle pm p := by
  intro p hp hc
  obtain ⟨h1, h2, h3, h4⟩ := C01_plugins_topological hcfg h he
  obtain ⟨before, after, hb⟩ := List.append_of_mem hp
  have hnd : pm.ordered.Nodup := List.Nodup.of_map _ h3
  have hmem := topo_before (pm := pm) h4 (fun a b ha hb hab => by
    have e1 := h2 a ha
    have e2 := h2 b hb
    unfold Manager.findPlugin at e1 e2
    rw [hab, e2] at e1
    exact (Option.some.inj e1).symm) hnd hp hc before after hb
  rw [show pm.plugins = pm.ordered from rfl] at hb
  rw [hb] at hnd
  rw [List.nodup_append] at hnd
  exact hnd.2.2 p hmem p (by simp) rfl

theorem chain_trans {pm : Manager} (hk : Keyed pm.pluginMap) {l : List Str} {a b : Str} (h : Chain pm.pluginMap (a :: (l ++ [b]))) :
    ∃ p q, pm.findPlugin a = some p ∧ pm.findPlugin b = some q ∧ p.name = a ∧ q.name = b ∧
      Relation.TransGen (fun a b => ∃ d ∈ a.deps, pm.findPlugin d = some b) p q := by
  induction l generalizing a with
  | nil =>
    obtain ⟨⟨p, q, h1, h2, h3, d, hd, hg⟩, _⟩ := h
    refine ⟨p, q, h1, ?_, h2, h3, .single ⟨d, hd, hg⟩⟩
    have := hk _ _ hg
    unfold Manager.findPlugin
    rw [← h3, this]; exact hg
  | cons c r ih =>
    obtain ⟨⟨p, q, h1, h2, h3, d, hd, hg⟩, hr⟩ := h
    obtain ⟨p', q', g1, g2, g3, g4, g5⟩ := ih hr
    have hq : pm.findPlugin c = some q := by
      have := hk _ _ hg
      unfold Manager.findPlugin
      rw [← h3, this]; exact hg
    rw [hq] at g1; cases g1
    exact ⟨p, q', h1, g2, h2, g4, .head ⟨d, hd, hg⟩ g5⟩

/-- **C05.** The cyclic-dependency error is reported only if there is a cycle: the names it prints form a chain of dependencies of the manager under
construction, the last of them occurs earlier in the chain (up to case), and lies on a cycle. -/
theorem C05_error_shows_cycle {cfg : Config} (hcfg : cfg.OK) {m : Machine} (h : Reachable cfg m) (env : Env) {k : Kind} {names : List Str}
    (hr : (plan cfg env k m.current m.next).res = .err (.cyclic names)) :
    ∃ pre last, names = pre ++ [last] ∧ name2key last ∈ pre.map name2key ∧
      (∀ a b l r, names = l ++ a :: b :: r → ∃ p q, (plan cfg env k m.current m.next).built.findPlugin a = some p ∧
        (plan cfg env k m.current m.next).built.findPlugin b = some q ∧ ∃ d ∈ p.deps, (plan cfg env k m.current m.next).built.findPlugin d = some q) ∧
      ∃ p, (plan cfg env k m.current m.next).built.findPlugin last = some p ∧ OnCycle (plan cfg env k m.current m.next).built p := by
  have hv := view hcfg h env k
  generalize plan cfg env k m.current m.next = p at hr hv ⊢
  obtain ⟨s0, s1, sb, f, why, hk, hf, hb⟩ : ∃ s0 s1 sb f, FinishFailed s1 env.it env.data f sb ∧ Keyed s1.pm.pluginMap ∧ f = .inl (.cyclic names) ∧ p.built = sb.pm := by
    cases hv.err hr with
    | list acts what => rcases what with h | ⟨_, h⟩ | ⟨_, h⟩ <;> cases h
    | callback what => cases what
    | early absDir entries dyn dir s0 sb f cr base why what =>
      cases f with
      | inl e => simp only [errOf] at what; subst what; exact why.elim
      | inr q => cases what
    | earlyStatic sps sel st hsel s0 sb f cr base why what =>
      cases f with
      | inl e => simp only [errOf] at what; subst what; exact why.elim
      | inr q => cases what
    | late s0 s1 sb f cr keyed why what acts built =>
      refine ⟨s0, s1, sb, f, why, keyed, ?_, built⟩
      cases f with
      | inl e => simp only [errOf] at what; rw [what]
      | inr q => cases what
  have hfail := why.fail
  rw [hf] at hfail
  obtain ⟨⟨pre, last, h1, h2, h3⟩, _⟩ := hfail
  have hk' := why.frame.same.keyed hk
  rw [hb]
  have drop : ∀ (l r : List Str) (x : Str), Chain sb.pm.pluginMap (l ++ x :: r) → Chain sb.pm.pluginMap (x :: r) := by
    intro l r x
    induction l with
    | nil => exact id
    | cons y l ih =>
      intro hc
      refine ih ?_
      cases l with
      | nil => cases r with
        | nil => exact trivial
        | cons z r => exact hc.2
      | cons z l => exact hc.2
  refine ⟨pre, last, h1, h3, ?_, ?_⟩
  · intro a b l r hn
    rw [hn] at h2
    obtain ⟨⟨p, q, g1, g2, g3, d, hd, hg⟩, _⟩ := drop l (b :: r) a h2
    refine ⟨p, q, g1, ?_, d, hd, hg⟩
    have := hk' _ _ hg
    unfold Manager.findPlugin
    rw [← g3, this]; exact hg
  · obtain ⟨x, hx, hxk⟩ := List.mem_map.mp h3
    obtain ⟨l1, l2, hl⟩ := List.append_of_mem hx
    have hc : Chain sb.pm.pluginMap (x :: (l2 ++ [last])) := by
      refine drop l1 _ _ ?_
      rw [h1, hl] at h2
      simpa using h2
    obtain ⟨p, q, g1, g2, _, _, g3⟩ := chain_trans hk' hc
    have : sb.pm.findPlugin x = sb.pm.findPlugin last := by unfold Manager.findPlugin; rw [hxk]
    rw [this, g2] at g1
    cases g1
    exact ⟨_, g2, g3⟩

/-! ### C06 -/

/-- **C06.** The ordering step never panics ("bugs!") in any call, and the cycle check never exceeds the number of plugins plus one in depth (the
model would report that as the same panic). -/
theorem C06_order_never_panics {cfg : Config} (hcfg : cfg.OK) {m : Machine} (h : Reachable cfg m) (env : Env) (k : Kind) (c : Option Str) :
    (plan cfg env k m.current m.next).res ≠ .err (.panicked c .orderBroken) ∧ (plan cfg env k m.current m.next).res ≠ .panic .orderBroken := by
  have hv := view hcfg h env k
  generalize plan cfg env k m.current m.next = p at hv ⊢
  constructor
  · intro hr
    cases hv.err hr with
    | list acts what => rcases what with h | ⟨_, h⟩ | ⟨_, h⟩ <;> cases h
    | callback what => cases what
    | early absDir entries dyn dir s0 sb f cr base why what =>
      cases f with
      | inl e => simp only [errOf] at what; subst what; rcases why with ⟨_, ⟨_, h, _⟩ | ⟨h, _⟩⟩ <;> cases h
      | inr q => exact why
    | earlyStatic sps sel st hsel s0 sb f cr base why what =>
      cases f with
      | inl e => simp only [errOf] at what; subst what; exact why
      | inr q => exact why
    | late s0 s1 sb f cr keyed why what acts built =>
      have hfail := why.fail
      cases f with
      | inl e => simp only [errOf] at what; subst what; exact hfail
      | inr q => simp only [errOf] at what; cases what; exact hfail
  · intro hr
    cases hv <;> rename_i res _ _ <;> rw [hr] at res <;> cases res

/-- **C06.** The recursion depth of the cycle check is at most the number of plugins plus one: with that much fuel the result is never "out of
fuel", and more fuel changes nothing. -/
theorem C06_cycle_check_depth (pm : Manager) (hk : Keyed pm.pluginMap) (p : Plugin) (hp : pm.pluginMap.get? (name2key p.name) = some p) (n : Nat) :
    checkCyclic pm.pluginMap (pm.pluginMap.size + 1) (some p) [] ≠ .fuel ∧
    checkCyclic pm.pluginMap (pm.pluginMap.size + 1 + n) (some p) [] = checkCyclic pm.pluginMap (pm.pluginMap.size + 1) (some p) [] := by
  have h0 : ∀ n, checkCyclic pm.pluginMap (pm.pluginMap.size + 1 + n) (some p) [] ≠ .fuel := by
    intro n
    exact checkCyclic_fuel hk (fun q hq => by cases hq; exact hp) (by simp) (by simp) (by simp)
  refine ⟨h0 0, ?_⟩
  induction n with
  | zero => rfl
  | succ n ih => rw [← Nat.add_assoc, checkCyclic_mono (h0 n), ih]

/-- **C06.** Ordering succeeds on every well-keyed map that the cycle check accepts, for every iteration order, within the number of rounds the code
allows. -/
theorem C06_order_total (m : GoMap Plugin) (hk : Keyed m) (it : Iter)
    (hc : ∀ k p, m.get? k = some p → p.deps ≠ [] → checkCyclic m (cyclicFuel m) (some p) [] = .clean) :
    ∃ a, orderPlugins it m = some a ∧ a.Perm m.vals ∧ Topological m a := by
  obtain ⟨a, ha⟩ := orderPlugins_total hk it hc
  exact ⟨a, ha, orderPlugins_some hk ha⟩

end

section Examples
open Demo
attribute [local instance] Demo.rt

/-- C01, C02, C04: a load of two plugins, from a reachable state; `app` (instance 1) depends on `base` (instance 2). The hooks it calls, in order. -/
example : Reachable cfg .init ∧ cfg.OK ∧ publishes (plan cfg env1 .load none 0).acts ≠ [] ∧
    (plan cfg env1 .load none 0).built.plugins.map (fun p => (p.inst, p.deps)) = [(2, []), (1, ["base".toList])] ∧
    ((plan cfg env1 .load none 0).acts.filterMap hookOf) =
      [(1, .reloadable), (1, .export), (2, .reloadable), (2, .export), (1, .import), (2, .import), (2, .onLoad), (1, .onLoad), (2, .onInit), (1, .onInit)] :=
  ⟨.init, cfg_ok, by simp only [ne_eq, ← List.isEmpty_iff, Bool.not_eq_true]; decide +kernel, by decide +kernel, by decide +kernel⟩

/-- C04: a reload that keeps `base` calls `OnLoad` and `OnInit` only on the new `app` (instance 4). -/
example : Reachable cfg m1 ∧ publishes (plan cfg env2 (.reload none) m1.current m1.next).acts ≠ [] ∧
    onLoads (plan cfg env2 (.reload none) m1.current m1.next).acts = [4] ∧ onInits (plan cfg env2 (.reload none) m1.current m1.next).acts = [4] :=
  ⟨m1_reachable, by simp only [ne_eq, ← List.isEmpty_iff, Bool.not_eq_true]; decide +kernel, by decide +kernel, by decide +kernel⟩

/-- C02: a load that fails in `OnInit` of `app` ends with the release of its plugins. -/
example : Reachable cfg m2 ∧ error? (plan cfg env5 (.reload none) m2.current m2.next).res = some (.hookErr "app".toList) ∧
    releases (plan cfg env5 (.reload none) m2.current m2.next).acts = [6, 2] := ⟨m2_reachable, by decide +kernel, by decide +kernel⟩

/-- Two plugins that import each other, and one of them itself. -/
def envCycle : Env := env both (fs 10 20 (code true 1 [⟨"App".toList, [], false, .func 2⟩]) goodApp)
def envSelf : Env := env ["base.so".toList] (fs 10 20 (code true 1 [⟨"Base".toList, [], false, .func 1⟩]) goodApp)

/-- C05: the cycles are found and reported. -/
example : error? (plan cfg envCycle .load none 0).res = some (.cyclic ["base".toList, "app".toList, "base".toList]) ∧
    error? (plan cfg envSelf .load none 0).res = some (.cyclic ["base".toList, "base".toList]) := by decide +kernel

/-- C06: the hypotheses are met by the manager of the first load; the order is found in the second round. -/
example : (plan cfg env1 .load none 0).built.pluginMap.keys = ["base".toList, "app".toList] ∧
    checkCyclic (plan cfg env1 .load none 0).built.pluginMap 3 ((plan cfg env1 .load none 0).built.findPlugin "App".toList) [] = .clean ∧
    (orderPlugins .rev (plan cfg env1 .load none 0).built.pluginMap).map (·.map (·.inst)) = some [2, 1] := by decide +kernel

end Examples
end Hotswap
