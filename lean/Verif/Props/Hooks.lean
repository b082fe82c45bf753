import Verif.Props.Files
import Verif.Props.Schedule
import Mathlib.Data.List.Sublists

/-!
# Which plugin functions a successful call calls: C03, C15
-/

namespace Hotswap

section
variable [GoRuntime]

/-- The functions that are called before a plugin is published. -/
def setupHooks : List Hook := [.reloadable, .export, .import, .onLoad, .onInit]

omit [GoRuntime] in
theorem mem_hooksOn {i : Nat} {l : List Act} {g : Hook} : g ∈ hooksOn i l ↔ ∃ a ∈ l, hookOf a = some (i, g) := by
  unfold hooksOn
  rw [List.mem_filterMap]
  constructor
  · rintro ⟨a, ha, h⟩
    refine ⟨a, ha, ?_⟩
    split at h
    · rename_i j g' hh
      split at h
      · rename_i hj; cases h; rw [hh, hj]
      · cases h
    · cases h
  · rintro ⟨a, ha, h⟩
    refine ⟨a, ha, ?_⟩
    rw [h]; simp

omit [GoRuntime] in
theorem setup_of_sublist {l : List Hook} (h : l.Sublist lifecycle) (hall : ∀ g ∈ setupHooks, g ∈ l) (hno : Hook.onFree ∉ l) : l = setupHooks := by
  have h2 : ∀ l ∈ lifecycle.sublists, (∀ g ∈ setupHooks, g ∈ l) → Hook.onFree ∉ l → l = setupHooks := by decide
  exact h2 l (List.mem_sublists.mpr h) hall hno

/-- The functions called in a publishing call are called on new plugins of the published manager. -/
theorem Success.hooks_only {cfg : Config} {env : Env} {k : Kind} {old : Option Manager} {n0 : Nat} {p : Plan} {s0 s1 s : LoadSt} {d : Details}
    (h : Success cfg env k old n0 p s0 s1 s d) {a : Act} (ha : a ∈ p.acts) {i : Nat} {g : Hook} (hg : hookOf a = some (i, g)) :
    ∃ key q, s.pm.pluginMap.get? key = some q ∧ q.unchanged = false ∧ q.inst = i := by
  obtain ⟨o, hacts⟩ := h.acts
  obtain ⟨v0, hl, _⟩ := h.fin.log
  have hord : ∀ q ∈ freshOnes s.pm.ordered, ∃ key, s.pm.pluginMap.get? key = some q ∧ q.unchanged = false := by
    intro q hq
    obtain ⟨h1, h2⟩ := mem_freshOnes.mp hq
    obtain ⟨key, hk⟩ := GoMap.mem_vals.mp (h.fin.ok.perm.mem_iff.mp h1)
    exact ⟨key, hk, h2⟩
  rw [hacts] at ha
  rcases List.mem_append.mp ha with ha | ha
  · rw [hl.acts] at ha
    simp only [List.mem_append] at ha
    rcases ha with ha | ha | ha | ha | ha | ha
    · obtain ⟨key, q, hq, hu, hi⟩ := h.asked.only a ha i g hg
      obtain ⟨dd, bb, hq'⟩ := h.fin.frame.same.get key q hq
      exact ⟨key, _, hq', hu, hi⟩
    · obtain ⟨j, hj, rfl⟩ := List.mem_map.mp ha
      obtain ⟨key, _, hkey⟩ := List.mem_filterMap.mp hj
      unfold importInst at hkey
      split at hkey
      · rename_i q hq
        split at hkey
        · cases hkey
        · rename_i hu
          cases hkey
          cases hg
          obtain ⟨dd, bb, hq'⟩ := h.fin.frame.same.get key q hq
          exact ⟨key, _, hq', by simpa using hu, rfl⟩
      · cases hkey
    · obtain ⟨q, hq, rfl⟩ := List.mem_map.mp ha
      obtain ⟨key, h1, h2⟩ := hord q hq
      cases hg
      exact ⟨key, q, h1, h2, rfl⟩
    · obtain ⟨q, hq, rfl⟩ := List.mem_map.mp ha
      cases hg
    · obtain ⟨q, hq, rfl⟩ := List.mem_map.mp ha
      cases hg
    · obtain ⟨q, hq, v, rfl⟩ := mem_initActs ha
      obtain ⟨key, h1, h2⟩ := hord q hq
      cases hg
      exact ⟨key, q, h1, h2, rfl⟩
  · exfalso
    rcases List.mem_append.mp ha with ha | ha
    · have := mem_cbActs ha
      cases a <;> simp [Act.stage] at this <;> cases hg
    · rcases List.mem_append.mp ha with ha | ha
      · split at ha
        · cases ha
        · have := spawn_stage a ha
          cases a <;> simp [Act.stage] at this <;> cases hg
      · rcases List.mem_cons.mp ha with rfl | ha
        · cases hg
        · have := count_stage a ha
          cases a <;> simp [Act.stage] at this <;> cases hg

/-- All five functions are called on every new plugin. -/
theorem Success.hooks_all {cfg : Config} {env : Env} {k : Kind} {old : Option Manager} {n0 : Nat} {p : Plan} {s0 s1 s : LoadSt} {d : Details}
    (h : Success cfg env k old n0 p s0 s1 s d) {key : Str} {q : Plugin} (hq : s.pm.pluginMap.get? key = some q) (hu : q.unchanged = false)
    {g : Hook} (hg : g ∈ setupHooks) : ∃ a ∈ p.acts, hookOf a = some (q.inst, g) := by
  obtain ⟨o, hacts⟩ := h.acts
  obtain ⟨v0, hl, _, hok, _⟩ := h.fin.log
  have hmem : q ∈ freshOnes s.pm.ordered := mem_freshOnes.mpr ⟨h.fin.ok.perm.mem_iff.mpr (GoMap.mem_vals.mpr ⟨key, hq⟩), hu⟩
  have hsub : ∀ a, a ∈ s.acts → a ∈ p.acts := by
    intro a ha; rw [hacts]; exact List.mem_append_left _ ha
  obtain ⟨q1, dd, bb, hq1, he, _⟩ := h.fin.frame.same.get' hq
  have hu1 : q1.unchanged = false := by rw [he] at hu; exact hu
  have hi : q1.inst = q.inst := by rw [he]
  simp only [setupHooks, List.mem_cons, List.not_mem_nil, or_false] at hg
  rcases hg with rfl | rfl | rfl | rfl | rfl
  · refine ⟨.callReloadable q.inst, hsub _ ?_, rfl⟩
    rw [hl.acts, ← hi]; exact List.mem_append_left _ (h.asked.all key q1 hq1 hu1).1
  · refine ⟨.callExport q.inst, hsub _ ?_, rfl⟩
    rw [hl.acts, ← hi]; exact List.mem_append_left _ (h.asked.all key q1 hq1 hu1).2
  · refine ⟨.callImport q.inst, hsub _ ?_, rfl⟩
    rw [hl.acts]
    refine List.mem_append_right _ (List.mem_append_left _ (List.mem_map.mpr ⟨q.inst, List.mem_filterMap.mpr ⟨key, ?_, ?_⟩, rfl⟩))
    · unfold importKeys
      rw [mem_sortStrings, GoMap.mem_range, GoMap.mem_keys]
      exact ⟨q1, hq1⟩
    · simp [importInst, hq1, hu1, hi]
  · refine ⟨.callOnLoad q.inst env.data, hsub _ ?_, rfl⟩
    rw [hl.acts]
    exact List.mem_append_right _ (List.mem_append_right _ (List.mem_append_left _ (List.mem_map.mpr ⟨q, hmem, rfl⟩)))
  · obtain ⟨v, hv, _⟩ := mem_initActs_of (mid := s1.pm.mid) hmem hok
    refine ⟨.callOnInit q.inst s1.pm.mid v, hsub _ ?_, rfl⟩
    rw [hl.acts]
    exact List.mem_append_right _ (List.mem_append_right _ (List.mem_append_right _ (List.mem_append_right _ (List.mem_append_right _ hv))))

/-- C03 for any call that finds a good manager. -/
theorem hooks_of_good {cfg : Config} (hcfg : cfg.OK) {m : Machine} (h : ∀ om, m.current = some om → SoundManager m.next om) (env : Env) {k : Kind} (hk : refused cfg k = false)
    {pm : Manager} (hp : .publish pm ∈ (plan cfg env k m.current m.next).acts) :
    (∀ p ∈ pm.plugins, isNew m.current p = true →
      hooksOn p.inst (plan cfg env k m.current m.next).acts = [.reloadable, .export, .import, .onLoad, .onInit]) ∧
    ∀ a ∈ (plan cfg env k m.current m.next).acts, ∀ i g, hookOf a = some (i, g) → ∃ p ∈ pm.plugins, isNew m.current p = true ∧ p.inst = i := by
  have hv := plan_view (env := env) (k := k) (n0 := m.next) hcfg h
  have hh := (hv.shape hk).hooks.1
  generalize plan cfg env k m.current m.next = p at hp hv hh ⊢
  obtain ⟨rfl, s0, s1, s, d, hs⟩ := hv.published hk hp
  have hnew : ∀ key q, s.pm.pluginMap.get? key = some q → isNew m.current q = !q.unchanged := fun key q hq => isNew_iff (h) hs.origin hq
  constructor
  · intro q hq hn
    rw [hs.built] at hq
    obtain ⟨key, hkey⟩ := GoMap.mem_vals.mp (hs.fin.ok.perm.mem_iff.mp hq)
    rw [hnew key q hkey] at hn
    have hall : ∀ g ∈ setupHooks, g ∈ hooksOn q.inst p.acts := fun g hg => mem_hooksOn.mpr (hs.hooks_all hkey (by simpa using hn) hg)
    have hpw : (hooksOn q.inst p.acts).Pairwise (fun a b => a.rank < b.rank) := by
      have e : hooksOn q.inst p.acts = ((p.acts.filterMap hookOf).filter (fun e => e.1 = q.inst)).map (·.2) := by
        unfold hooksOn
        induction p.acts with
        | nil => rfl
        | cons a l ih =>
          rw [List.filterMap_cons, List.filterMap_cons]
          cases ha : hookOf a with
          | none => simpa using ih
          | some e =>
            obtain ⟨j, g⟩ := e
            by_cases hj : j = q.inst
            · simp only [hj, if_true, decide_true, List.filter_cons_of_pos, List.map_cons]; rw [ih]
            · simp only [hj, if_false, decide_false]
              rw [List.filter_cons_of_neg (by simpa using hj), ih]
      rw [e, List.pairwise_map]
      refine (hh.filter (fun e => decide (e.1 = q.inst))).imp_of_mem ?_
      intro a b ha hb hab
      simp at ha hb
      exact hab (ha.2.trans hb.2.symm)
    have hno : Hook.onFree ∉ hooksOn q.inst p.acts := by
      intro hm
      obtain ⟨a, _, ha⟩ := mem_hooksOn.mp hm
      cases a <;> simp [hookOf] at ha
    have hsub := sublist_lifecycle hpw
    exact setup_of_sublist hsub hall hno
  · intro a ha i g hg
    obtain ⟨key, q, hq, hu, hi⟩ := hs.hooks_only ha hg
    refine ⟨q, ?_, by rw [hnew key q hq, hu]; rfl, hi⟩
    rw [hs.built]
    exact hs.fin.ok.perm.mem_iff.mpr (GoMap.mem_vals.mpr ⟨key, hq⟩)

/-- **C03.** A call that publishes a manager calls `Reloadable`, `Export`, `Import`, `OnLoad` and `OnInit`, in this order and once each, on every new plugin of the
manager, and no function of any other plugin. -/
theorem C03_hooks_of_publishing_call {cfg : Config} (hcfg : cfg.OK) {m : Machine} (h : Reachable cfg m) (env : Env) {k : Kind} (hk : refused cfg k = false)
    {pm : Manager} (hp : .publish pm ∈ (plan cfg env k m.current m.next).acts) :
    (∀ p ∈ pm.plugins, isNew m.current p = true →
      hooksOn p.inst (plan cfg env k m.current m.next).acts = [.reloadable, .export, .import, .onLoad, .onInit]) ∧
    ∀ a ∈ (plan cfg env k m.current m.next).acts, ∀ i g, hookOf a = some (i, g) → ∃ p ∈ pm.plugins, isNew m.current p = true ∧ p.inst = i :=
  hooks_of_good hcfg (sound_old hcfg h) env hk hp

/-- The functions `H` were called on the plugins of the current manager, and of the one a call is going to publish. -/
structure ReadyOf (H : List Hook) (m : Machine) : Prop where
  cur : ∀ pm, m.current = some pm → ∀ q ∈ pm.plugins, ∀ g ∈ H, (q.inst, g) ∈ m.hooks
  todo : ∀ r, m.running = some r → ∀ pre pm rest, r.todo = pre ++ .publish pm :: rest → ∀ q ∈ pm.plugins, ∀ g ∈ H,
    (q.inst, g) ∈ m.hooks ++ pre.filterMap hookOf

/-- All five functions were called on these plugins. -/
abbrev ReadyInv (m : Machine) : Prop := ReadyOf setupHooks m

theorem ReadyOf.same {H : List Hook} {m m' : Machine} (h : ReadyOf H m) (hc : m'.current = m.current) (hh : m.hooks ⊆ m'.hooks)
    (hr : ∀ r', m'.running = some r' → ∃ r, m.running = some r ∧ r'.todo = r.todo) : ReadyOf H m' := by
  constructor
  · intro pm hpm q hq g hg
    rw [hc] at hpm
    exact hh (h.cur pm hpm q hq g hg)
  · intro r' hr' pre pm rest htodo q hq g hg
    obtain ⟨r, hr, ht⟩ := hr r' hr'
    rw [ht] at htodo
    rcases List.mem_append.mp (h.todo r hr pre pm rest htodo q hq g hg) with hm | hm
    · exact List.mem_append_left _ (hh hm)
    · exact List.mem_append_right _ hm

theorem ReadyOf.init {H : List Hook} : ReadyOf H Machine.init := by
  constructor
  · intro pm h; cases h
  · intro r h; cases h

/-- A call with the plan `p` calls the functions `H` on every plugin of the manager it publishes, unless the plugin is one of the old manager. -/
def CallReady (H : List Hook) (old : Option Manager) (p : Plan) : Prop := ∀ pre pm rest, p.acts = pre ++ .publish pm :: rest → ∀ q ∈ pm.plugins,
  (∀ g ∈ H, (q.inst, g) ∈ pre.filterMap hookOf) ∨ ∃ om, old = some om ∧ ∃ o ∈ om.plugins, o.inst = q.inst

theorem ReadyOf.callPlan {H : List Hook} {m : Machine} (ih : ReadyOf H m) {k : Kind} {p : Plan} (hp : CallReady H m.current p) :
    ReadyOf H { m.log (.called k) with
          next := p.next
          builts := p.built :: m.builts
          running := some { kind := k, todo := p.acts, res := p.res, phase := .idle, held := [] } } := by
  have hlog : ∀ e, m.hooks ⊆ (m.log e).hooks := by
    intro e x hx; rw [hooks_log]; exact List.mem_append_left _ hx
  refine ⟨fun pm hpm q hq g hg => hlog _ (ih.cur pm hpm q hq g hg), ?_⟩
  intro r hr pre pm rest htodo q hq g hg
  cases hr
  rcases hp pre pm rest htodo q hq with h | ⟨om, ho, o, hold, hi⟩
  · exact List.mem_append_right _ (h g hg)
  · have := ih.cur om ho o hold g hg
    rw [hi] at this
    exact List.mem_append_left _ (hlog (.called k) this)

theorem callReady {cfg : Config} (hcfg : cfg.OK) {m : Machine} (h : ∀ om, m.current = some om → SoundManager m.next om) {k : Kind} (env : Env) (hk : refused cfg k = false) :
    CallReady setupHooks m.current (plan cfg env k m.current m.next) := by
  intro pre pm rest htodo q hq
  have hp : .publish pm ∈ (plan cfg env k m.current m.next).acts := by rw [htodo]; simp
  have hph := phases_of_good hcfg h env hk
  have hv := plan_view (env := env) (k := k) (n0 := m.next) hcfg h
  have hnew := hooks_of_good hcfg h env hk hp
  by_cases hn : isNew m.current q = true
  · left
    intro g hg
    have := hnew.1 q hq hn
    have hg' : g ∈ hooksOn q.inst (plan cfg env k m.current m.next).acts := by rw [this]; exact hg
    obtain ⟨a, ha, hh⟩ := mem_hooksOn.mp hg'
    rw [htodo] at ha hph
    rcases List.mem_append.mp ha with ha | ha
    · exact List.mem_filterMap.mpr ⟨a, ha, hh⟩
    · exfalso
      rcases List.mem_cons.mp ha with rfl | ha
      · cases hh
      · have h7 := (List.pairwise_cons.mp (List.pairwise_append.mp hph).2.1).1 a ha
        cases a <;> simp [Act.stage] at h7 <;> cases hh
  · right
    obtain ⟨hb, s0, s1, s, d, hs⟩ := hv.published hk hp
    subst hb
    rw [hs.built] at hq
    obtain ⟨key, hkey⟩ := GoMap.mem_vals.mp (hs.fin.ok.perm.mem_iff.mp hq)
    rw [isNew_iff h hs.origin hkey] at hn
    rcases hs.origin key q hkey with ⟨_, om, oldP, ho, hold, hi, _⟩ | ⟨hu, _⟩
    · exact ⟨om, ho, oldP, (h om ho).ordered.mem_iff.mpr (GoMap.mem_vals.mpr ⟨key, hold⟩), hi⟩
    · rw [hu] at hn; simp at hn

theorem CallReady.mono {H H' : List Hook} {old : Option Manager} {p : Plan} (h : CallReady H old p) (hs : H' ⊆ H) : CallReady H' old p := by
  intro pre pm rest he q hq
  rcases h pre pm rest he q hq with h | h
  · exact .inl (fun g hg => h g (hs hg))
  · exact .inr h

theorem ReadyOf.step {H : List Hook} (hH : H ⊆ setupHooks) {cfg : Config} (hcfg : cfg.OK) {m m' : Machine} {l : Label} (h : ∀ om, m.current = some om → SoundManager m.next om) (ih : ReadyOf H m) (hs : Step cfg m l m') : ReadyOf H m' := by
  have hlog : ∀ e, m.hooks ⊆ (m.log e).hooks := by
    intro e x hx; rw [hooks_log]; exact List.mem_append_left _ hx
  cases hs with
  | refused k env hk => exact ih.same rfl (hlog _) (fun r' hr' => ⟨r', hr', rfl⟩)
  | call k env hk run => exact ih.callPlan ((callReady hcfg h env hk).mono hH)
  | act r a rest run phase todo plain =>
    have hh : Machine.hooks { (m.log (.act a)).perform cfg a with
        running := some { r with todo := rest, held := heldAfter r.held a } } = m.hooks ++ (hookOf a).toList := by
      have : Machine.hooks { (m.log (.act a)).perform cfg a with
        running := some { r with todo := rest, held := heldAfter r.held a } } = (m.log (.act a)).hooks := hooks_congr perform_trace
      rw [this, hooks_log]; rfl
    constructor
    · intro pm hpm q hq g hg
      rw [hh]
      rcases perform_publish (m := m.log (.act a)) hpm with h | h
      · exact List.mem_append_left _ (ih.cur pm h q hq g hg)
      · have := ih.todo r run [] pm rest (by rw [todo, h]; rfl) q hq g hg
        exact List.mem_append_left _ (by simpa using this)
    · intro r' hr' pre pm rest' htodo q hq g hg
      cases hr'
      change rest = _ at htodo
      have := ih.todo r run (a :: pre) pm rest' (by rw [todo, htodo]; rfl) q hq g hg
      rw [hh]
      rw [List.filterMap_cons] at this
      cases ha : hookOf a with
      | none => rw [ha] at this; simpa using this
      | some e => rw [ha] at this; simpa using this
  | release r i rest run phase todo =>
    constructor
    · intro pm hpm q hq g hg
      exact hlog (.act (.release i)) (ih.cur pm hpm q hq g hg)
    · intro r' hr' pre pm rest' htodo q hq g hg
      cases hr'
      change rest = _ at htodo
      have := ih.todo r run (.release i :: pre) pm rest' (by rw [todo, htodo]; rfl) q hq g hg
      rw [List.filterMap_cons] at this
      change _ ∈ (m.log (.act (.release i))).hooks ++ _
      rcases List.mem_append.mp this with hm | hm
      · exact List.mem_append_left _ (hlog _ hm)
      · exact List.mem_append_right _ hm
  | runSkip r i run phase once => exact ih.same rfl (fun _ h => h) (fun r' hr' => by cases hr'; exact ⟨r, run, rfl⟩)
  | runBegin r i run phase once => exact ih.same rfl (hlog (.freeBegin i)) (fun r' hr' => by cases hr'; exact ⟨r, run, rfl⟩)
  | runEnd r i run phase => exact ih.same rfl (hlog (.freeEnd i)) (fun r' hr' => by cases hr'; exact ⟨r, run, rfl⟩)
  | ret r run todo phase => exact ih.same rfl (hlog (.returned r.kind r.res)) (fun r' hr' => by cases hr')
  | freeDec t x y frees phase i rest todo due => exact ih.same rfl (fun _ h => h) (fun r' hr' => ⟨r', hr', rfl⟩)
  | freeSkip t x y frees i phase once => exact ih.same rfl (fun _ h => h) (fun r' hr' => ⟨r', hr', rfl⟩)
  | freeBegin t x y frees i phase once => exact ih.same rfl (hlog (.freeBegin i)) (fun r' hr' => ⟨r', hr', rfl⟩)
  | freeEnd t x y frees i phase => exact ih.same rfl (hlog (.freeEnd i)) (fun r' hr' => ⟨r', hr', rfl⟩)
  | tick d => exact ih.same rfl (fun _ h => h) (fun r' hr' => ⟨r', hr', rfl⟩)
  | read => exact ih.same rfl (hlog _) (fun r' hr' => ⟨r', hr', rfl⟩)
  | readCounter => exact ih.same rfl (hlog _) (fun r' hr' => ⟨r', hr', rfl⟩)

theorem ReadyInv.step {cfg : Config} (hcfg : cfg.OK) {m m' : Machine} {l : Label} (h : ∀ om, m.current = some om → SoundManager m.next om) (ih : ReadyInv m) (hs : Step cfg m l m') : ReadyInv m' :=
  ReadyOf.step (fun _ h => h) hcfg h ih hs

theorem readyInv {cfg : Config} (hcfg : cfg.OK) {m : Machine} (h : Reachable cfg m) : ReadyInv m :=
  Reachable.ind (P := ReadyInv) ReadyOf.init (fun _ _ _ hreach ih hs => ih.step hcfg (sound_old hcfg hreach) hs) h

theorem ReadyInv.current_ready {m : Machine} (hri : ReadyInv m) (hhi : HookInv m) {pm : Manager} (hc : m.current = some pm) {q : Plugin} (hq : q ∈ pm.plugins) :
    m.hooksOf q.inst = [.reloadable, .export, .import, .onLoad, .onInit] ++ (if q.inst ∈ m.begins then [.onFree] else []) := by
  have hall : ∀ g ∈ setupHooks, g ∈ m.hooksOf q.inst := by
    intro g hg
    have := hri.cur pm hc q hq g hg
    unfold Machine.hooksOf
    exact List.mem_map.mpr ⟨(q.inst, g), List.mem_filter.mpr ⟨this, by simp⟩, rfl⟩
  have hfree : Hook.onFree ∈ m.hooksOf q.inst ↔ q.inst ∈ m.begins := by
    constructor
    · intro hm
      obtain ⟨e, he, hf⟩ := List.mem_map.mp hm
      obtain ⟨he, hi⟩ := List.mem_filter.mp he
      obtain ⟨i, g⟩ := e
      simp at hi hf
      subst hi hf
      exact mem_begins_of_hook he
    · intro hm
      unfold Machine.begins at hm
      obtain ⟨e, he, hb⟩ := List.mem_filterMap.mp hm
      refine List.mem_map.mpr ⟨(q.inst, .onFree), List.mem_filter.mpr ⟨List.mem_filterMap.mpr ⟨e, he, ?_⟩, by simp⟩, rfl⟩
      cases e with
      | freeBegin j => simp at hb; subst hb; rfl
      | _ => simp at hb
  have hsub := hhi.hooksOf_sublist q.inst
  have key : ∀ l ∈ lifecycle.sublists, (∀ g ∈ setupHooks, g ∈ l) → l = setupHooks ++ (if Hook.onFree ∈ l then [.onFree] else []) := by decide
  have := key _ (List.mem_sublists.mpr hsub) hall
  rw [this]
  congr 1
  by_cases hb : q.inst ∈ m.begins
  · rw [if_pos (hfree.mpr hb), if_pos hb]
  · rw [if_neg (fun h => hb (hfree.mp h)), if_neg hb]

/-- **C03.** At any time, on every plugin of the current manager exactly `Reloadable`, `Export`, `Import`, `OnLoad` and `OnInit` have been called, once each and in this order (and
`OnFree` possibly after them, if publication was delayed, see C08). -/
theorem C03_current_ready {cfg : Config} (hcfg : cfg.OK) {m : Machine} (h : Reachable cfg m) {pm : Manager} (hc : m.current = some pm) {q : Plugin} (hq : q ∈ pm.plugins) :
    m.hooksOf q.inst = [.reloadable, .export, .import, .onLoad, .onInit] ++ (if q.inst ∈ m.begins then [.onFree] else []) :=
  (readyInv hcfg h).current_ready (hookInv hcfg h) hc hq

/-! ### C15 -/

/-- The files opened by a list of actions, in order. -/
def openedFiles (l : List Act) : List Str := l.filterMap (fun a => match a with | .openPlugin f => some f | _ => none)

/-- The actions of a dynamic load that publishes a manager. -/
theorem View.dynamic_acts {cfg : Config} {env : Env} {k : Kind} {old : Option Manager} {n0 : Nat} {p : Plan} (h : View cfg env k old n0 p) (hst : cfg.static = none)
    {pm : Manager} (hp : Act.publish pm ∈ p.acts) {absDir : Str} {entries : List DirEntry} (hdir : env.dir = some (absDir, entries)) :
    ∃ s0 s1 s, LoadDone old n0 env.it env.fs (listedFiles cfg absDir entries) env.data s0 s1 s ∧ ∃ rest, p.acts = s1.acts ++ rest ∧ ∀ a ∈ rest, a.stage ≠ 1 := by
  have hk : refused cfg k = false := by cases k <;> simp [refused, hst]
  obtain ⟨hb, s0', s1', s', d', hs⟩ := h.published hk hp
  cases h with
  | listErr e dyn why acts res next built => rw [acts] at hp; simp at hp
  | empty absDir entries dyn dir wl none acts res next built => rw [acts] at hp; cases k <;> simp [countActs] at hp
  | escaped ext panics acts res next built => rw [acts] at hp; simp at hp
  | staticMissing sps e st kl sel acts res next built => rw [hst] at st; cases st
  | staticErr sps sel st => rw [hst] at st; cases st
  | staticCb sps sel st => rw [hst] at st; cases st
  | staticOk sps sel st => rw [hst] at st; cases st
  | dynErr absDir entries dyn dir wl some s0 sb f cr failed body acts res next built => rw [hs.res] at res; cases res
  | dynCb absDir entries dyn dir wl some s0 s1 s cr done cbs n o rest split bad good acts res next built => rw [hs.res] at res; cases res
  | dynOk absDir' entries' dyn dir wl some s0 s1 s d cr done good details acts res next built =>
    rw [hdir] at dir; cases dir
    obtain ⟨v0, hl, _⟩ := done.fin.log
    refine ⟨s0, s1, s, done, _, by rw [acts, hl.acts, List.append_assoc, List.append_assoc], ?_⟩
    intro a ha
    simp only [List.mem_append] at ha
    rcases ha with (ha | ha | ha | ha | ha) | ha | ha | ha
    · obtain ⟨j, _, rfl⟩ := List.mem_map.mp ha; simp [Act.stage]
    · obtain ⟨j, _, rfl⟩ := List.mem_map.mp ha; simp [Act.stage]
    · obtain ⟨j, _, rfl⟩ := List.mem_map.mp ha; simp [Act.stage]
    · obtain ⟨j, _, rfl⟩ := List.mem_map.mp ha; simp [Act.stage]
    · obtain ⟨j, _, v, rfl⟩ := mem_initActs ha; simp [Act.stage]
    · rw [mem_cbActs ha]; decide
    · rw [spawn_stage a ha]; decide
    · rcases List.mem_cons.mp ha with rfl | ha
      · simp [Act.stage]
      · rw [count_stage a ha]; decide

/-- **C15.** A dynamic load that publishes a manager opens exactly the listed files whose plugins are not kept, each once, in the order of the plugin names. -/
theorem C15_opened {cfg : Config} (hcfg : cfg.OK) (hst : cfg.static = none) {m : Machine} (h : Reachable cfg m) (env : Env) {k : Kind} {pm : Manager}
    (hp : .publish pm ∈ (plan cfg env k m.current m.next).acts) {absDir : Str} {entries : List DirEntry} (hdir : env.dir = some (absDir, entries)) :
    (∀ f, f ∈ openedFiles (plan cfg env k m.current m.next).acts ↔ f ∈ listedFiles cfg absDir entries ∧ NotKept env.fs m.current f) ∧
    (openedFiles (plan cfg env k m.current m.next).acts).Nodup ∧
    (openedFiles (plan cfg env k m.current m.next).acts).Pairwise (fun f g => pluginName f ≤ pluginName g) := by
  have hv := view hcfg h env k
  generalize plan cfg env k m.current m.next = p at *
  obtain ⟨s0, s1, s, done, rest, hacts, hrest⟩ := hv.dynamic_acts hst hp hdir
  obtain ⟨kept, names, hlog, hkept, hsort, hnd, hnames⟩ := done.stage1.log
  have hmap : ∀ key ∈ names, ∃ q f, s1.pm.pluginMap.get? key = some q ∧ f ∈ listedFiles cfg absDir entries ∧ fileKey f = key ∧ q.file = f ∧ pluginName f = key ∧
      NotKept env.fs m.current f := by
    intro key hkey
    obtain ⟨q, hq, hu⟩ := (hnames key).mp hkey
    obtain ⟨f, hf, hfk⟩ := done.stage1.only key q hq
    obtain ⟨data, q', hr, hq', hfate⟩ := done.stage1.fate f hf
    rw [hfk, hq] at hq'; cases hq'
    cases hfate with
    | notReloadable om oldP h1 h2 h3 h4 => rw [h4] at hu; cases hu
    | unchanged om oldP h1 h2 h3 h4 h5 => rw [h5] at hu; cases hu
    | renewed hn hb =>
      refine ⟨q, f, hq, hf, hfk, hb.file, ?_, ?_⟩
      · have h1 := hb.lower
        rw [hb.name] at h1
        rw [← hfk]; exact h1.symm
      · intro om oldP data' h1 h2 h3
        rw [hr] at h3; cases h3
        exact hn om oldP h1 h2
  have hopened : openedFiles p.acts = names.filterMap (fun key => (s1.pm.pluginMap.get? key).map (·.file)) := by
    have e1 : openedFiles p.acts = openedFiles s1.acts := by
      rw [hacts]
      unfold openedFiles
      rw [List.filterMap_append]
      have : rest.filterMap (fun a => match a with | .openPlugin f => some f | _ => none) = [] := by
        rw [List.filterMap_eq_nil_iff]
        intro a ha
        have := hrest a ha
        cases a <;> first | rfl | simp [Act.stage] at this
      rw [this, List.append_nil]
    rw [e1, hlog]
    unfold openedFiles
    rw [List.filterMap_append]
    have : kept.filterMap (fun a => match a with | .openPlugin f => some f | _ => none) = [] := by
      rw [List.filterMap_eq_nil_iff]
      intro a ha
      obtain ⟨i, rfl⟩ := hkept a ha
      rfl
    rw [this, List.nil_append, List.filterMap_flatMap]
    clear hlog hsort hnd hmap hnames
    induction names with
    | nil => rfl
    | cons key r ih =>
      rw [List.flatMap_cons, List.filterMap_cons, ih]
      cases hq : s1.pm.pluginMap.get? key with
      | none => simp [newActs, hq]
      | some q => simp [newActs, hq]
  have hpn : (openedFiles p.acts).map pluginName = names := by
    rw [hopened]
    have : ∀ l : List Str, (∀ key ∈ l, key ∈ names) → (l.filterMap (fun key => (s1.pm.pluginMap.get? key).map (·.file))).map pluginName = l := by
      intro l
      induction l with
      | nil => intro _; rfl
      | cons key r ih =>
        intro hsub
        obtain ⟨q, f, hq, _, _, hqf, hname, _⟩ := hmap key (hsub key (by simp))
        rw [List.filterMap_cons]
        simp only [hq, Option.map_some, List.map_cons]
        rw [hqf, hname, ih (fun x hx => hsub x (List.mem_cons_of_mem _ hx))]
    exact this names (fun _ h => h)
  refine ⟨?_, ?_, ?_⟩
  · intro f
    rw [hopened, List.mem_filterMap]
    constructor
    · rintro ⟨key, hkey, he⟩
      obtain ⟨q, g, hq, hg, _, hqf, _, hn⟩ := hmap key hkey
      rw [hq] at he
      simp only [Option.map_some, Option.some.injEq] at he
      rw [← he, hqf]
      exact ⟨hg, hn⟩
    · rintro ⟨hf, hn⟩
      obtain ⟨data, q, hr, hq, hfate⟩ := done.stage1.fate f hf
      refine ⟨fileKey f, ?_, ?_⟩
      · rw [hnames]
        refine ⟨q, hq, ?_⟩
        cases hfate with
        | notReloadable om oldP h1 h2 h3 h4 => have := (hn om oldP data h1 h2 hr).1; rw [h3] at this; cases this
        | unchanged om oldP h1 h2 h3 h4 h5 => exact absurd h4 (hn om oldP data h1 h2 hr).2
        | renewed _ hb => exact hb.changed
      · cases hfate with
        | notReloadable om oldP h1 h2 h3 h4 => have := (hn om oldP data h1 h2 hr).1; rw [h3] at this; cases this
        | unchanged om oldP h1 h2 h3 h4 h5 => exact absurd h4 (hn om oldP data h1 h2 hr).2
        | renewed _ hb => rw [hq]; simp [hb.file]
  · exact List.Nodup.of_map pluginName (by rw [hpn]; exact hnd)
  · have := hsort
    rw [← hpn, List.pairwise_map] at this
    exact this

end

section Examples
open Demo
attribute [local instance] Demo.rt

/-- The hypotheses are met: in the state after the first load, a reload with a changed `app` publishes, opens only `app`, and calls the five functions on the new instance 4. -/
example : (∃ pm, .publish pm ∈ (plan cfg env2 (.reload none) m1.current m1.next).acts) ∧ refused cfg (.reload none) = false ∧
    openedFiles (plan cfg env2 (.reload none) m1.current m1.next).acts = [appFile] ∧
    hooksOn 4 (plan cfg env2 (.reload none) m1.current m1.next).acts = [.reloadable, .export, .import, .onLoad, .onInit] ∧
    hooksOn 2 (plan cfg env2 (.reload none) m1.current m1.next).acts = [] := by
  refine ⟨?_, rfl, by decide +kernel, by decide +kernel, by decide +kernel⟩
  have : (publishes (plan cfg env2 (.reload none) m1.current m1.next).acts).length = 1 := by decide +kernel
  obtain ⟨pm, hpm⟩ := List.exists_mem_of_ne_nil _ (List.ne_nil_of_length_eq_add_one this)
  exact ⟨pm, mem_publishes.mp hpm⟩

/-- In the state `m4` the current manager has the plugins 4 and 2, and the functions were called as stated. -/
example : m4.currentInsts = [4, 2] ∧ m4.hooksOf 4 = [.reloadable, .export, .import, .onLoad, .onInit] ∧
    m4.hooksOf 2 = [.reloadable, .export, .import, .onLoad, .onInit] := by decide +kernel

end Examples

end Hotswap
