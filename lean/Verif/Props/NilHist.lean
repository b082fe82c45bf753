import Verif.Proofs.NilHist
import Verif.Proofs.Drain
import Verif.Props.Hooks
import Verif.Props.PanicNil

/-!
# Histories in which plugins panic with nil: C89
-/

namespace Hotswap

section
variable [GoRuntime]

/-- The functions that are called even then. -/
def fourHooks : List Hook := [.reloadable, .export, .import, .onLoad]

/-- When a live function panics, `OnLoad` has been called on every new plugin. -/
theorem FinishFailed.loaded {s1 sb : LoadSt} {it : Iter} {data : Nat} (h : FinishFailed s1 it data (.inr .user) sb) (hs : ∀ a ∈ s1.acts, a.stage = 1) (hask : Asked s1)
    (hord : sb.pm.ordered.Perm sb.pm.pluginMap.vals) {key : Str} {q : Plugin} (hq : sb.pm.pluginMap.get? key = some q) (hu : q.unchanged = false)
    {g : Hook} (hg : g ∈ fourHooks) : (q.inst, g) ∈ sb.acts.filterMap hookOf := by
  obtain ⟨im, ol, lf, lt, oi, v0, hl⟩ := h.log
  have hmem : q ∈ sb.pm.ordered := hord.mem_iff.mpr (GoMap.mem_vals.mpr ⟨key, hq⟩)
  have him := hl.im_done (List.ne_nil_of_mem hmem)
  have hol : ol = freshOnes sb.pm.ordered := by
    refine (hl.ol_done ?_).1
    by_contra hne
    simp only [not_or, not_not] at hne
    obtain ⟨h1, h2, h3⟩ := hne
    subst h1 h2 h3
    obtain ⟨p, _, hlast⟩ := h.last
    have hm : Act.callLiveFuncs p.inst ∈ sb.acts ∨ Act.callLiveTypes p.inst ∈ sb.acts := by
      rcases hlast with ⟨h1, _⟩ | ⟨h1, _⟩
      · exact .inl (List.mem_of_getLast? h1)
      · exact .inr (List.mem_of_getLast? h1)
    rw [hl.acts] at hm
    simp only [List.mem_append, initActs, List.map_nil, List.not_mem_nil, or_false] at hm
    rcases hm with (hm | hm | hm) | (hm | hm | hm)
    · have := hs _ hm; simp [Act.stage] at this
    · obtain ⟨_, _, h⟩ := List.mem_map.mp hm; cases h
    · obtain ⟨_, _, h⟩ := List.mem_map.mp hm; cases h
    · have := hs _ hm; simp [Act.stage] at this
    · obtain ⟨_, _, h⟩ := List.mem_map.mp hm; cases h
    · obtain ⟨_, _, h⟩ := List.mem_map.mp hm; cases h
  obtain ⟨q1, dd, bb, hq1, he, _⟩ := h.frame.same.get' hq
  have hu1 : q1.unchanged = false := by rw [he] at hu; exact hu
  have hi : q1.inst = q.inst := by rw [he]
  have hsub : ∀ a, a ∈ s1.acts → a ∈ sb.acts := by intro a ha; rw [hl.acts]; exact List.mem_append_left _ ha
  rw [List.mem_filterMap]
  simp only [fourHooks, List.mem_cons, List.not_mem_nil, or_false] at hg
  rcases hg with rfl | rfl | rfl | rfl
  · exact ⟨.callReloadable q.inst, hsub _ (by rw [← hi]; exact (hask.all key q1 hq1 hu1).1), rfl⟩
  · exact ⟨.callExport q.inst, hsub _ (by rw [← hi]; exact (hask.all key q1 hq1 hu1).2), rfl⟩
  · refine ⟨.callImport q.inst, ?_, rfl⟩
    rw [hl.acts]
    refine List.mem_append_right _ (List.mem_append_left _ (List.mem_map.mpr ⟨q.inst, List.mem_filterMap.mpr ⟨key, ?_, ?_⟩, rfl⟩))
    · rw [him]
      unfold importKeys
      rw [mem_sortStrings, GoMap.mem_range, GoMap.mem_keys]
      exact ⟨q1, hq1⟩
    · simp [importInst, hq1, hu1, hi]
  · refine ⟨.callOnLoad q.inst data, ?_, rfl⟩
    rw [hl.acts]
    refine List.mem_append_right _ (List.mem_append_right _ (List.mem_append_left _ (List.mem_map.mpr ⟨q, ?_, rfl⟩)))
    rw [hol]
    exact mem_freshOnes.mpr ⟨hmem, hu⟩

theorem AfterNil.callReady {cbs : List (Nat × Outcome)} {it : Iter} {k : Kind} {old old' : Option Manager} {n0 data : Nat} {det : Option Details} {sb : LoadSt} {q : Plan}
    (h : AfterNil cbs it k old det sb q) (body : BodyLog old n0 sb) (hold : ∀ om, old = some om → old' = some om ∧ SoundManager n0 om)
    (hdet : ∀ d, det = some d → ∃ s1, Asked s1 ∧ (∀ a ∈ s1.acts, a.stage = 1) ∧ FinishFailed s1 it data (.inr .user) sb ∧ SoundManager sb.next sb.pm) : CallReady fourHooks old' q := by
  obtain ⟨b1, b2, b3⟩ := low_of_body body.stage
  have hno : ∀ cs pm, Act.publish pm ∉ sb.acts ++ cbActs sb.pm.mid (old.map (·.mid)) cs := by
    intro cs pm hm
    have := stage_cb (new := sb.pm.mid) (old := old.map (·.mid)) (cbs := cs) body.stage _ hm
    simp [Act.stage] at this
  intro pre pm rest he p hp
  have hin : Act.publish pm ∈ q.acts := by rw [he]; simp
  cases h with
  | callback done n o rest split bad good acts res =>
    exfalso
    obtain ⟨rel, h1, _⟩ := body.cleanup it
    rw [acts, h1] at hin
    rcases List.mem_append.mp hin with hin | hin
    · exact hno _ _ hin
    · obtain ⟨_, _, h⟩ := List.mem_map.mp hin; cases h
  | nilDeref good no acts res => rw [acts] at hin; exact absurd hin (hno _ _)
  | published d good yes acts res =>
    obtain ⟨s1, hask, hs1, why, hsound⟩ := hdet d yes
    have e : (sb.acts ++ cbActs sb.pm.mid (old.map (·.mid)) cbs ++ spawnActs old) ++ .publish sb.pm :: countActs k = pre ++ .publish pm :: rest := by rw [← he, acts]; simp
    have e' := (List.append_cons_inj_of_notMem (by
      intro hm
      rcases List.mem_append.mp hm with hm | hm
      · exact hno _ _ hm
      · cases old <;> simp [spawnActs] at hm) (by cases k <;> simp [countActs])).mp e
    obtain ⟨rfl, hpm, _⟩ := e'
    injection hpm with hpm
    subst hpm
    obtain ⟨key, hkey⟩ := GoMap.mem_vals.mp (hsound.ordered.mem_iff.mp hp)
    rcases body.origin key p hkey with ⟨_, om, oldP, ho, hold', hi, _⟩ | ⟨hu, _⟩
    · obtain ⟨h1, h2⟩ := hold om ho
      exact .inr ⟨om, h1, oldP, h2.ordered.mem_iff.mpr (GoMap.mem_vals.mpr ⟨key, hold'⟩), hi⟩
    · left
      intro g hg
      have := why.loaded hs1 hask hsound.ordered hkey hu hg
      rw [List.filterMap_append, List.filterMap_append]
      exact List.mem_append_left _ (List.mem_append_left _ this)

theorem callReadyNil {cfg : Config} (hcfg : cfg.OK) {m : Machine} (h : ∀ om, m.current = some om → SoundManager m.next om) {k : Kind} (env : Env) (hk : refused cfg k = false) :
    CallReady fourHooks m.current (planNil cfg env k m.current m.next) := by
  cases plan_nilView (env := env) (k := k) hcfg h with
  | same eq no => rw [eq]; exact (callReady hcfg h env hk).mono (by decide)
  | dyn absDir entries isDyn dir s0 sb f n cr failed body plug what res built next after =>
    refine after.callReady (data := env.data) body (fun om ho => ⟨ho, h om ho⟩) ?_
    intro d hd
    cases failed with
    | early base why =>
      cases f with
      | inr p => exact why.elim
      | inl e =>
        simp only [errOf] at what
        subst what
        obtain ⟨_, ⟨_, hc, _⟩ | ⟨_, g, hg, _, hc, _, hno, _⟩⟩ := why
        · cases hc
        · rw [buildDetails_none hg hno] at hd; cases hd
    | late s1 done why =>
      have hf := plugin_panic_late' plug why.fail
      subst hf
      exact ⟨s1, done.asked, done.base.stage, why, why.sound body⟩
  | static sps sel st kl hsel s0 sb f n d cr failed body plug what res built next after =>
    refine after.callReady (data := env.data) body (fun om ho => by cases ho) ?_
    intro d' _
    cases failed with
    | early base why =>
      cases f with
      | inr p => exact why.elim
      | inl e =>
        simp only [errOf] at what
        subst what
        exact why.elim
    | late s1 done why =>
      have hf := plugin_panic_late' plug why.fail
      subst hf
      exact ⟨s1, done.asked, done.base.stage, why, why.sound body⟩

/-! ### The invariants at the level of histories -/

theorem readyNil {cfg : Config} (hcfg : cfg.OK) {m : Machine} {L : List Nat} (h : NReachable cfg m L) : ReadyOf fourHooks m := by
  induction h with
  | init => exact ReadyOf.init
  | @step m m' L l hr hs ih =>
    have hsnd := hr.sound hcfg
    cases nstep_view hs with
    | go l m' st nr => exact ReadyOf.step (by decide) hcfg hsnd ih st
    | refused k env hk => exact ReadyOf.step (l := .call k env) (by decide) hcfg hsnd ih (.refused k env hk)
    | call k env hk run => exact ih.callPlan (callReadyNil hcfg hsnd env hk)
    | ret r run todo phase => exact (ReadyOf.step (by decide) hcfg hsnd ih (.ret r run todo phase)).same rfl (fun _ h => h) (fun r' hr' => by cases hr')

/-- The events of a history, each with the state that caused it. -/
theorem nhist {cfg : Config} {m : Machine} {L : List Nat} (h : NReachable cfg m L) :
    ∀ a t e b, m.trace = a ++ (t, e) :: b → ∃ m0 L0, NReachable cfg m0 L0 ∧ m0.trace = a ∧ m0.now = t ∧ Cause cfg m0 e := by
  induction h with
  | init => intro a t e b h; simp [Machine.init] at h
  | @step m m' L l hr hs ih =>
    intro a t e b he
    have hem : m'.trace = m.trace ∨ ∃ e, m'.trace = m.trace ++ [(m.now, e)] ∧ Cause cfg m e := by
      cases nstep_view hs with
      | go l m' st nr => exact st.emits
      | refused k env hk => exact .inr ⟨_, rfl, .refused k hk⟩
      | call k env hk run => exact .inr ⟨_, rfl, .called k hk run⟩
      | ret r run todo phase => exact .inr ⟨_, rfl, .returned r run phase todo⟩
    rcases hem with h | ⟨ev, h, hc⟩
    · exact ih a t e b (h ▸ he)
    · rw [h] at he
      rcases snoc_split he with ⟨b', _, hl⟩ | ⟨_, rfl, hx⟩
      · exact ih a t e b' hl
      · cases hx
        exact ⟨m, L, hr, rfl, rfl, hc⟩

theorem NLater.reach {cfg : Config} {m m' : Machine} {L : List Nat} (h : NReachable cfg m L) (hl : NLater cfg m m') : ∃ L', NReachable cfg m' (L' ++ L) := by
  induction hl with
  | refl => exact ⟨[], h⟩
  | step l _ hs ih =>
    obtain ⟨L', hr⟩ := ih
    exact ⟨_, by rw [List.append_assoc]; exact .step l hr hs⟩

/-- Once a call has started, what is set up is decided: every later call sets up later instances. -/
theorem NLater.hooks {cfg : Config} (hcfg : cfg.OK) {m m' : Machine} {L : List Nat} (h : NReachable cfg m L) (hl : NLater cfg m m') :
    m.next ≤ m'.next ∧ ∀ i g, i < m.next → g ≠ .onFree → (i, g) ∈ m'.hooks ++ todoHooks m'.running → (i, g) ∈ m.hooks ++ todoHooks m.running := by
  induction hl with
  | refl => exact ⟨Nat.le_refl _, fun _ _ _ _ h => h⟩
  | @step m1 m2 l hl hs ih =>
    obtain ⟨L1, hr⟩ := hl.reach h
    have hsnd := hr.sound hcfg
    suffices key : m1.next ≤ m2.next ∧ ∀ i g, i < m.next → g ≠ .onFree → (i, g) ∈ m2.hooks ++ todoHooks m2.running → (i, g) ∈ m1.hooks ++ todoHooks m1.running from
      ⟨Nat.le_trans ih.1 key.1, fun i g hi hg hm => ih.2 i g hi hg (key.2 i g hi hg hm)⟩
    have start : ∀ (k : Kind) (p : Plan), m1.running = none → m1.next ≤ p.next → (∀ e ∈ p.acts.filterMap hookOf, m1.next ≤ e.1) →
        m1.next ≤ (m1.start k p).next ∧ ∀ i g, i < m.next → g ≠ .onFree → (i, g) ∈ (m1.start k p).hooks ++ todoHooks (m1.start k p).running → (i, g) ∈ m1.hooks ++ todoHooks m1.running := by
      intro k p run hle hp
      refine ⟨hle, fun i g hi hg hm => ?_⟩
      rcases List.mem_append.mp hm with hm | hm
      · have : (m1.start k p).hooks = m1.hooks ++ [] := hooks_log m1 (.called k)
        rw [this, List.append_nil] at hm
        exact List.mem_append_left _ hm
      · have := hp _ hm
        have := ih.1
        simp only at *
        omega
    have same : ∀ (m2 : Machine), m2.next = m1.next → (∀ e ∈ m2.hooks, e ∈ m1.hooks ∨ e.2 = .onFree) → todoHooks m2.running = todoHooks m1.running →
        m1.next ≤ m2.next ∧ ∀ i g, i < m.next → g ≠ .onFree → (i, g) ∈ m2.hooks ++ todoHooks m2.running → (i, g) ∈ m1.hooks ++ todoHooks m1.running := by
      intro m2 hn hh ht
      refine ⟨Nat.le_of_eq hn.symm, fun i g hi hg hm => ?_⟩
      rw [ht] at hm
      rcases List.mem_append.mp hm with hm | hm
      · rcases hh _ hm with h | h
        · exact List.mem_append_left _ h
        · exact absurd h hg
      · exact List.mem_append_right _ hm
    have quiet : ∀ (e : Ev), (∀ x, evHook e = some x → x.2 = .onFree) → ∀ x ∈ (m1.log e).hooks, x ∈ m1.hooks ∨ x.2 = .onFree := by
      intro e he x hx
      rw [hooks_log] at hx
      rcases List.mem_append.mp hx with hx | hx
      · exact .inl hx
      · exact .inr (he x (by simpa using hx))
    cases nstep_view hs with
    | refused k env hk => exact same _ rfl (quiet _ (by simp [evHook])) rfl
    | call k env hk run =>
      obtain ⟨hle, rel, hsh, _⟩ := planNil_shape (env := env) (k := k) hcfg hsnd hk
      refine start k _ run hle (fun e he => (hsh.hooks.2 e ?_).1)
      change e ∈ List.filterMap hookOf ((planNil cfg env k m1.current m1.next).acts ++ rel.map Act.release)
      rw [List.filterMap_append]
      exact List.mem_append_left _ he
    | ret r run todo phase =>
      refine same _ rfl (quiet (.returned r.kind r.res) (by simp [evHook])) ?_
      rw [run]; simp [todoHooks, runTodo, todo]
    | go l m2 st nr =>
      cases st with
      | call k env hr run =>
        have hv := plan_view (env := env) (k := k) (old := m1.current) (n0 := m1.next) hcfg hsnd
        exact start k _ run hv.next_le (fun e he => ((hv.shape hr).hooks.2 e he).1)
      | refused k env hr => exact same _ rfl (quiet _ (by simp [evHook])) rfl
      | act r a rest run phase todo plain =>
        refine ⟨by change _ ≤ ((m1.log (.act a)).perform cfg a).next; rw [perform_next]; exact Nat.le_refl _, fun i g hi hg hm => ?_⟩
        have hh : Machine.hooks { (m1.log (.act a)).perform cfg a with
            running := some { r with todo := rest, held := heldAfter r.held a } } = m1.hooks ++ (hookOf a).toList := by
          have : Machine.hooks { (m1.log (.act a)).perform cfg a with
            running := some { r with todo := rest, held := heldAfter r.held a } } = (m1.log (.act a)).hooks := hooks_congr perform_trace
          rw [this, hooks_log]; rfl
        rw [hh] at hm
        rw [run, todoHooks_cons todo]
        rw [List.append_assoc] at hm
        exact hm
      | release r i rest run phase todo =>
        refine ⟨Nat.le_refl _, fun j g hi hg hm => ?_⟩
        rw [run, todoHooks_cons todo]
        rcases List.mem_append.mp hm with hm | hm
        · rcases quiet (.act (.release i)) (by simp [evHook, hookOf]) _ hm with h | h
          · exact List.mem_append_left _ h
          · exact absurd h hg
        · exact List.mem_append_right _ hm
      | runSkip r i run phase once => exact same _ rfl (fun _ h => .inl h) (by rw [run]; rfl)
      | runBegin r i run phase once => exact same _ rfl (quiet (.freeBegin i) (by simp [evHook])) (by rw [run]; rfl)
      | runEnd r i run phase => exact same _ rfl (quiet (.freeEnd i) (by simp [evHook])) (by rw [run]; rfl)
      | ret r run todo phase => exact absurd rfl nr
      | freeDec t x y frees phase i rest todo due => exact same _ rfl (fun _ h => .inl h) rfl
      | freeSkip t x y frees i phase once => exact same _ rfl (fun _ h => .inl h) rfl
      | freeBegin t x y frees i phase once => exact same _ rfl (quiet (.freeBegin i) (by simp [evHook])) rfl
      | freeEnd t x y frees i phase => exact same _ rfl (quiet (.freeEnd i) (by simp [evHook])) rfl
      | tick d => exact same _ rfl (fun _ h => .inl h) rfl
      | read => exact same _ rfl (quiet _ (by simp [evHook])) rfl
      | readCounter => exact same _ rfl (quiet _ (by simp [evHook])) rfl

/-! ### C89 -/

/-- **C89.** Whatever has been published: the functions of the plugins are called in the documented order, each at most once. -/
theorem C89_lifecycle {cfg : Config} (hcfg : cfg.OK) {m : Machine} {L : List Nat} (h : NReachable cfg m L) (i : Nat) : (m.hooksOf i).Sublist lifecycle := by
  obtain ⟨rel, hi⟩ := ninv hcfg h
  exact hi.hook.hooksOf_sublist i

/-- **C89.** On every plugin of the current manager, `Reloadable`, `Export`, `Import` and `OnLoad` have been called (`OnInit` perhaps not). -/
theorem C89_set_up {cfg : Config} (hcfg : cfg.OK) {m : Machine} {L : List Nat} (h : NReachable cfg m L) {pm : Manager} (hc : m.current = some pm) {q : Plugin} (hq : q ∈ pm.plugins) :
    ∀ g ∈ [Hook.reloadable, .export, .import, .onLoad], g ∈ m.hooksOf q.inst := by
  intro g hg
  have := (readyNil hcfg h).cur pm hc q hq g hg
  unfold Machine.hooksOf
  exact List.mem_map.mpr ⟨(q.inst, g), List.mem_filter.mpr ⟨this, by simp⟩, rfl⟩

/-- **C89.** What was not initialised in such a call never will be: a plugin that is new in the manager published after the `panic(nil)` of a live function is never initialised, in whatever happens afterwards, though later
reloads may keep it. -/
theorem C89_never_initialised {cfg : Config} {env : Env} {k : Kind} {m : Machine} (h : NilPanic cfg env k m none) (hk : refused cfg k = false) (run : m.running = none) (hcb : ∀ c ∈ callbacks cfg env k, c.2 = .ok)
    {q : Plugin} (hq : q ∈ (planNil cfg env k m.current m.next).built.plugins) (hn : isNew m.current q = true) {m' : Machine} (hl : NLater cfg (m.start k (planNil cfg env k m.current m.next)) m') :
    .onInit ∉ m'.hooksOf q.inst := by
  obtain ⟨L, hr⟩ := h.reach
  have hU := C86_live_panic h hcb
  have hsnd := hr.sound h.ok
  obtain ⟨hle, rel, hsh, _⟩ := planNil_shape (env := env) (k := k) h.ok hsnd hk
  have hstart : m.nstep cfg (.callNil k env) = some (m.start k (planNil cfg env k m.current m.next)) := by simp [Machine.nstep, hk, run]
  have hr' := NReachable.step _ hr hstart
  obtain ⟨d, hd⟩ := hU.succeeds
  have hpub : Act.publish (planNil cfg env k m.current m.next).built ∈ (planNil cfg env k m.current m.next).acts := mem_publishes.mp (by rw [hU.published]; simp)
  have hrange : m.next ≤ q.inst ∧ q.inst < (planNil cfg env k m.current m.next).next := by
    obtain ⟨pre, rest, he⟩ := List.append_of_mem hpub
    rcases callReadyNil h.ok hsnd env hk pre _ rest he q hq with hh | ⟨om, ho, o, hom, hi⟩
    · have := hh .onLoad (by decide)
      refine hsh.hooks.2 (q.inst, .onLoad) ?_
      change _ ∈ List.filterMap hookOf ((planNil cfg env k m.current m.next).acts ++ rel.map Act.release)
      rw [List.filterMap_append, he, List.filterMap_append]
      exact List.mem_append_left _ (List.mem_append_left _ this)
    · exfalso
      simp only [isNew, ho] at hn
      simp at hn
      exact hn (by rw [← hi]; exact List.mem_map.mpr ⟨o, (hsnd om ho).ordered.mem_iff.mp hom, rfl⟩)
  intro hm
  obtain ⟨⟨j, g⟩, he, hg⟩ := List.mem_map.mp hm
  obtain ⟨he, hj⟩ := List.mem_filter.mp he
  simp at hj hg
  subst hj hg
  have := (hl.hooks h.ok hr').2 q.inst .onInit hrange.2 (by simp) (List.mem_append_left _ he)
  rcases List.mem_append.mp this with hm | hm
  · have e : (m.start k (planNil cfg env k m.current m.next)).hooks = m.hooks ++ [] := hooks_log m (.called k)
    rw [e, List.append_nil] at hm
    obtain ⟨rel', hi⟩ := ninv h.ok hr
    have hlt := hi.hook.lt (q.inst, .onInit) (List.mem_append_left _ hm)
    have := hrange.1
    change q.inst < m.next at hlt
    omega
  · obtain ⟨a, ha, hh⟩ := List.mem_filterMap.mp hm
    cases a <;> simp [hookOf] at hh
    subst hh
    exact hU.noInit _ _ _ ha

/-- **C89.** Nothing is freed twice, nothing is freed that is not registered, that is in the current manager, or whose references are lost; counts are never negative. -/
theorem C89_safe {cfg : Config} (hcfg : cfg.OK) {m : Machine} {L : List Nat} (h : NReachable cfg m L) (i : Nat) :
    0 ≤ m.refs i ∧ m.ends.count i ≤ m.begins.count i ∧ m.begins.count i ≤ 1 ∧ (i ∈ m.begins → i ∈ m.regs ∧ i ∉ L ∧ (m.running = none → i ∉ m.currentInsts)) := by
  obtain ⟨rel, hx⟩ := ninv hcfg h
  exact hx.safe i

/-- See `C89_what_is_lost`. -/
theorem NInv.what_is_lost {cfg : Config} {m m' : Machine} {L rel : List Nat} (hx : NInv cfg m L rel) {l : NLabel} (hs : m.nstep cfg l = some m') (hne : m.nilLoses l ≠ []) :
    (∃ k, m'.trace = m.trace ++ [(m.now, .returned k (.panic .nilDeref))]) ∧ (∀ b ∈ lastCallActs m.trace, (∀ pm, b ≠ .publish pm) ∧ (∀ pm, b ≠ .spawnFree pm) ∧ (∀ i, b ≠ .release i) ∧ b ≠ .count) ∧
    (∀ i, i ∈ m.nilLoses l ↔ Act.register i ∈ lastCallActs m.trace ∨ Act.inc i ∈ lastCallActs m.trace) ∧ m'.current = m.current ∧ m'.counter = m.counter ∧ m'.refs = m.refs ∧
    ∀ k env, ∃ m'', m'.nstep cfg (.go (.call k env)) = some m'' := by
  cases nstep_view hs with
  | go l m' st nr => exact absurd (by cases l <;> first | rfl | exact absurd rfl nr) hne
  | refused k env hr => exact absurd rfl hne
  | call k env hr run => exact absurd rfl hne
  | ret r run todo phase =>
    have hheld : m.nilLoses (.go .ret) = r.held := by
      have hc := hx.call
      rw [owing_some run] at hc
      exact (hc _ rfl).held.symm
    have hrel : rel ≠ [] := by
      rintro rfl
      have hi := hx.inv
      rw [owing_nil] at hi
      exact hne (hheld.trans (hi.ret_held run todo))
    obtain ⟨hres, hst⟩ := hx.panics hrel r run
    rw [todo, List.append_nil] at hst
    refine ⟨⟨r.kind, by rw [← hres]; rfl⟩, ?_, ?_, rfl, rfl, rfl, fun k env => ?_⟩
    · intro b hb
      have := hst b hb
      cases b <;> simp [Act.stage] at this <;> simp
    · intro i
      change i ∈ owed (lastCallActs m.trace) ↔ _
      rw [owed_acquired _ hst, List.mem_reverse]
      unfold acquired
      rw [List.mem_filterMap]
      constructor
      · rintro ⟨a, ha, he⟩
        cases a <;> simp [acquires] at he
        · subst he; exact .inl ha
        · subst he; exact .inr ha
      · rintro (ha | ha)
        · exact ⟨_, ha, rfl⟩
        · exact ⟨_, ha, rfl⟩
    · exact C38_call_enabled (m := { m.log (.returned r.kind r.res) with running := none, abandoned := r.held ++ m.abandoned }) rfl k env

/-- **C89.** What is lost, and when: only a call that returns with the nil dereference loses anything. It has published nothing and freed nothing, and what it loses are all the instances it had entered in its manager, new and kept. The
current manager and the counter are what they were, and the lock is free. -/
theorem C89_what_is_lost {cfg : Config} (hcfg : cfg.OK) {m m' : Machine} {L : List Nat} (h : NReachable cfg m L) {l : NLabel} (hs : m.nstep cfg l = some m') (hne : m.nilLoses l ≠ []) :
    (∃ k, m'.trace = m.trace ++ [(m.now, .returned k (.panic .nilDeref))]) ∧ (∀ b ∈ lastCallActs m.trace, (∀ pm, b ≠ .publish pm) ∧ (∀ pm, b ≠ .spawnFree pm) ∧ (∀ i, b ≠ .release i) ∧ b ≠ .count) ∧
    (∀ i, i ∈ m.nilLoses l ↔ Act.register i ∈ lastCallActs m.trace ∨ Act.inc i ∈ lastCallActs m.trace) ∧ m'.current = m.current ∧ m'.counter = m.counter ∧ m'.refs = m.refs ∧
    ∀ k env, ∃ m'', m'.nstep cfg (.go (.call k env)) = some m'' := by
  obtain ⟨rel, hx⟩ := ninv hcfg h
  exact hx.what_is_lost hs hne

/-- **C89.** What is lost is never freed, whatever happens afterwards: neither the new instances of the call nor the instances of the current manager it had kept, though later reloads supersede it. -/
theorem C89_never_freed {cfg : Config} (hcfg : cfg.OK) {m m' m'' : Machine} {L : List Nat} (h : NReachable cfg m L) {l : NLabel} (hs : m.nstep cfg l = some m') {i : Nat} (hi : i ∈ m.nilLoses l)
    (hl : NLater cfg m' m'') : i ∉ m''.begins ∧ 0 < m''.refs i := by
  obtain ⟨L', hr⟩ := hl.reach (.step l h hs)
  have hi' : i ∈ L' ++ (m.nilLoses l ++ L) := by simp [hi]
  refine ⟨fun hb => ((C89_safe hcfg hr i).2.2.2 hb).2.1 hi', ?_⟩
  obtain ⟨rel, hx⟩ := ninv hcfg hr
  exact hx.kept hi'

/-- **C89.** Everything else is freed: when the program is at rest, each registered instance that is not in the current manager and not lost has been freed, once. This includes the plugins that were never initialised. -/
theorem C89_others_freed {cfg : Config} (hcfg : cfg.OK) (hst : cfg.static = none) {m : Machine} {L : List Nat} (h : NReachable cfg m L) (hq : m.Quiet) {i : Nat} (hi : i ∈ m.regs) (hc : i ∉ m.currentInsts)
    (hL : i ∉ L) : m.begins.count i = 1 ∧ m.ends.count i = 1 := by
  obtain ⟨rel, hx⟩ := ninv hcfg h
  exact hx.others_freed hst hq hi hc hL

/-- **C89.** The free delay is kept: `OnFree` begins on an instance that was part of a published manager only if the load that superseded this manager started its delayed free at least max(15 s, `WithFreeDelay`) before. -/
theorem C89_delay {cfg : Config} (hcfg : cfg.OK) {m : Machine} {L : List Nat} (h : NReachable cfg m L) {a b : History} {t T i : Nat} {pm : Manager}
    (he : m.trace = a ++ (t, .freeBegin i) :: b) (hp : (T, Ev.act (.publish pm)) ∈ a) (hi : i ∈ pm.insts) :
    ∃ T0, (T0, Ev.act (.spawnFree pm)) ∈ a ∧ T0 + max 15000000000 cfg.freeDelay ≤ t := by
  obtain ⟨m0, L0, hr, rfl, rfl, hc⟩ := nhist h a t _ b he
  obtain ⟨rel, hx⟩ := ninv hcfg hr
  exact hx.delayed hc hp hi

/-- A step does not look at the references that are lost. -/
theorem step_forget {cfg : Config} {m m' : Machine} {l : Label} (h : m.step cfg l = some m') (z : List Nat) :
    ∃ z', Step cfg { m with abandoned := z } l { m' with abandoned := z' } ∧ ∀ r, l = .ret → m.running = some r → z' = z := by
  cases step_view h with
  | refused k env hr => exact ⟨z, .refused k env hr, fun _ _ _ => rfl⟩
  | call k env hr run => exact ⟨z, Step.call (m := { m with abandoned := z }) k env hr run, fun _ _ _ => rfl⟩
  | act r a rest run phase todo plain =>
    refine ⟨((({ m with abandoned := z } : Machine).log (.act a)).perform cfg a).abandoned, ?_, fun _ e _ => by cases e⟩
    have := Step.act (cfg := cfg) (m := { m with abandoned := z }) r a rest run phase todo plain
    convert this using 1
    cases a <;> rfl
  | release r i rest run phase todo => exact ⟨z, Step.release (m := { m with abandoned := z }) r i rest run phase todo, fun _ _ _ => rfl⟩
  | runSkip r i run phase once => exact ⟨z, Step.runSkip (m := { m with abandoned := z }) r i run phase once, fun _ _ _ => rfl⟩
  | runBegin r i run phase once => exact ⟨z, Step.runBegin (m := { m with abandoned := z }) r i run phase once, fun _ _ _ => rfl⟩
  | runEnd r i run phase => exact ⟨z, Step.runEnd (m := { m with abandoned := z }) r i run phase, fun _ _ _ => rfl⟩
  | ret r run todo phase => exact ⟨z, Step.ret (m := { m with abandoned := z }) r run todo phase, fun _ _ _ => rfl⟩
  | freeDec t x y frees phase i rest todo due => exact ⟨z, Step.freeDec (m := { m with abandoned := z }) t x y frees phase i rest todo due, fun _ _ _ => rfl⟩
  | freeSkip t x y frees i phase once => exact ⟨z, Step.freeSkip (m := { m with abandoned := z }) t x y frees i phase once, fun _ _ _ => rfl⟩
  | freeBegin t x y frees i phase once => exact ⟨z, Step.freeBegin (m := { m with abandoned := z }) t x y frees i phase once, fun _ _ _ => rfl⟩
  | freeEnd t x y frees i phase => exact ⟨z, Step.freeEnd (m := { m with abandoned := z }) t x y frees i phase, fun _ _ _ => rfl⟩
  | tick d => exact ⟨z, Step.tick (m := { m with abandoned := z }) d, fun _ _ _ => rfl⟩
  | read => exact ⟨z, Step.read (m := { m with abandoned := z }), fun _ _ _ => rfl⟩
  | readCounter => exact ⟨z, Step.readCounter (m := { m with abandoned := z }), fun _ _ _ => rfl⟩

theorem stays_idle {cfg : Config} {m m' : Machine} {l : Label} (h : m.step cfg l = some m') (hc : l.isCall = false) (hr : m.running = none) : m'.running = none ∧ l ≠ .ret := by
  cases step_view h with
  | refused k env _ => cases hc
  | call k env _ _ => cases hc
  | act r a rest run phase todo plain => rw [hr] at run; cases run
  | release r i rest run phase todo => rw [hr] at run; cases run
  | runSkip r i run phase once => rw [hr] at run; cases run
  | runBegin r i run phase once => rw [hr] at run; cases run
  | runEnd r i run phase => rw [hr] at run; cases run
  | ret r run todo phase => rw [hr] at run; cases run
  | _ => exact ⟨hr, by simp⟩

/-- **C89.** The program can come to rest from every such state, without any further call; if no call is running, without losing anything more. -/
theorem C89_comes_to_rest {cfg : Config} {m : Machine} {L : List Nat} (h : NReachable cfg m L) :
    ∃ m' L', NLater cfg m m' ∧ NReachable cfg m' (L' ++ L) ∧ m'.Quiet ∧ (m.running = none → L' = []) := by
  obtain ⟨ls, m', hs, hq, hcall⟩ := drain (cfg := cfg) m.weight m rfl
  have go : ∀ (ls : List Label), (∀ l ∈ ls, l.isCall = false) → ∀ (m1 : Machine) (z : List Nat) (L' : List Nat), NLater cfg m { m1 with abandoned := z } → NReachable cfg { m1 with abandoned := z } (L' ++ L) → m1.steps cfg ls = some m' →
      ∃ z' L'', NLater cfg m { m' with abandoned := z' } ∧ NReachable cfg { m' with abandoned := z' } (L'' ++ L) ∧ (m1.running = none → L'' = L') := by
    intro ls
    induction ls with
    | nil => intro _ m1 z L' h1 h2 h3; cases h3; exact ⟨z, L', h1, h2, fun _ => rfl⟩
    | cons l r ih =>
      intro hcs m1 z L' h1 h2 h3
      unfold Machine.steps at h3
      cases hl : m1.step cfg l with
      | none => rw [hl] at h3; cases h3
      | some m2 =>
        rw [hl] at h3
        obtain ⟨z', hst, hz⟩ := step_forget hl z
        have hidle := stays_idle hl (hcs l (by simp))
        by_cases hret : l = .ret
        · subst hret
          cases hst' : step_view hl with
          | ret r' run todo phase =>
            have hn : Machine.nstep cfg { m1 with abandoned := z } (.go .ret) = some { m1.log (.returned r'.kind r'.res) with running := none, abandoned := r'.held ++ z } := by
              have he := hst.enabled
              rw [hz r' rfl run] at he
              simp only [Machine.nstep, run]
              rw [run] at he
              rw [he]
              rfl
            obtain ⟨z2, L2, e1, e2, e3⟩ := ih (fun l hl => hcs l (by simp [hl])) { m1.log (.returned r'.kind r'.res) with running := none } (r'.held ++ z) _ (.step _ h1 hn)
              (by have := NReachable.step _ h2 hn; rw [← List.append_assoc] at this; exact this) h3
            exact ⟨z2, L2, e1, e2, fun hr => by rw [hr] at run; cases run⟩
        · have hn : Machine.nstep cfg { m1 with abandoned := z } (.go l) = some { m2 with abandoned := z' } := by
            cases l with
            | ret => exact absurd rfl hret
            | _ => exact hst.enabled
          have hlose : Machine.nilLoses { m1 with abandoned := z } (.go l) = [] := by cases l <;> first | rfl | exact absurd rfl hret
          obtain ⟨z2, L2, e1, e2, e3⟩ := ih (fun l hl => hcs l (by simp [hl])) m2 z' L' (.step _ h1 hn) (by have := NReachable.step _ h2 hn; rw [hlose] at this; exact this) h3
          exact ⟨z2, L2, e1, e2, fun hr => e3 (hidle hr).1⟩
  obtain ⟨z', L', h1, h2, h3⟩ := go ls hcall m m.abandoned [] .refl h hs
  exact ⟨_, L', h1, h2, hq, h3⟩

/-- **C89.** If no plugin panics with nil, nothing changes: these are among the histories considered here, and nothing is lost in them. -/
theorem C89_nothing_new {cfg : Config} (hcfg : cfg.OK) {m : Machine} (h : Reachable cfg m) : NReachable cfg m [] := h.nil hcfg

end

/-! ### The hypotheses are met by real executions -/

section Examples
open Demo
attribute [local instance] Demo.rt

/-- A sequence of steps and what they lose. -/
def nrun (c : Config) : Machine × List Nat → List NLabel → Option (Machine × List Nat)
  | s, [] => some s
  | (m, L), l :: r => match m.nstep c l with
    | none => none
    | some m' => nrun c (m', m.nilLoses l ++ L) r

theorem nrun_reachable {c : Config} {ls : List NLabel} {s s' : Machine × List Nat} (h : NReachable c s.1 s.2) (hr : nrun c s ls = some s') : NReachable c s'.1 s'.2 := by
  induction ls generalizing s with
  | nil => simp [nrun] at hr; exact hr ▸ h
  | cons l r ih =>
    obtain ⟨m, L⟩ := s
    unfold nrun at hr
    cases hs : m.nstep c l with
    | none => rw [hs] at hr; cases hr
    | some m1 => rw [hs] at hr; exact ih (s := (m1, m.nilLoses l ++ L)) (.step l h hs) hr

/-- The state after a sequence of steps. -/
def nafter (ls : List NLabel) : Machine × List Nat := (nrun cfg (Machine.init, []) ls).getD (Machine.init, [])

theorem nafter_reachable {ls : List NLabel} (h : (nrun cfg (Machine.init, []) ls).isSome = true) : NReachable cfg (nafter ls).1 (nafter ls).2 := by
  obtain ⟨s, hs⟩ := Option.isSome_iff_exists.mp h
  refine nrun_reachable (s := (Machine.init, [])) .init (ls := ls) ?_
  rw [nafter, hs]; rfl

/-- A call, performed without interruption, in `n` steps, in which a panic is a `panic(nil)`. -/
def nilCall (k : Kind) (e : Env) (n : Nat) : List NLabel := .callNil k e :: (List.replicate n Label.act ++ [Label.ret]).map .go

/-- The files have not changed since `envLivePanic`. -/
def envSame : Env := env both (fs 10 21 goodBase { goodApp with liveFuncs := .panics })

/-- Load `base` and `app`; reload with a changed `app`, whose `HotswapLiveFuncs` panics with nil. -/
def nilSteps1 : List NLabel := steps1.map .go ++ nilCall (.reload none) envLivePanic 13
/-- Reload again, with the same files. -/
def nilSteps2 : List NLabel := nilSteps1 ++ nilCall (.reload none) envSame 8
/-- Reload without `app`, and the delayed frees. -/
def nilSteps3 : List NLabel := nilSteps2 ++
  (callSteps (.reload none) env4 7 ++ Label.tick 15000000000 :: (List.replicate 4 (Label.free 0) ++ List.replicate 2 (Label.free 1) ++ List.replicate 4 (Label.free 2))).map .go
/-- Load `base` and `app`; reload with a changed `app`, whose package initialisation panics with nil, as far as the return. -/
def nilSteps4 : List NLabel := steps1.map .go ++ .callNil (.reload none) envOpenPanic :: (List.replicate 3 Label.act).map .go
/-- The call returns; a reload with both plugins changed, and the delayed free of the first manager. -/
def nilSteps5 : List NLabel := nilSteps4 ++ (Label.ret :: (callSteps (.reload none) (env both (fs 12 23 goodBase goodApp)) 22 ++ Label.tick 15000000000 :: List.replicate 4 (Label.free 0))).map .go

theorem nil1_reachable : NReachable cfg (nafter nilSteps1).1 (nafter nilSteps1).2 := nafter_reachable (by decide +kernel)
theorem nil2_reachable : NReachable cfg (nafter nilSteps2).1 (nafter nilSteps2).2 := nafter_reachable (by decide +kernel)
theorem nil3_reachable : NReachable cfg (nafter nilSteps3).1 (nafter nilSteps3).2 := nafter_reachable (by decide +kernel)
theorem nil4_reachable : NReachable cfg (nafter nilSteps4).1 (nafter nilSteps4).2 := nafter_reachable (by decide +kernel)
theorem nil5_reachable : NReachable cfg (nafter nilSteps5).1 (nafter nilSteps5).2 := nafter_reachable (by decide +kernel)

/-- The hypotheses of `C89_never_initialised`: the new `app` (instance 4) is published. It is kept by the next reload, is not initialised then either, and is freed in the end. -/
example : NilPanic cfg envLivePanic (.reload none) m1 none ∧ refused cfg (.reload none) = false ∧ m1.running.isNone = true ∧
    (planNil cfg envLivePanic (.reload none) m1.current m1.next).built.plugins.map (fun q => (q.inst, isNew m1.current q)) = [(2, false), (4, true)] :=
  ⟨⟨cfg_ok, ⟨_, m1_reachable.nil cfg_ok⟩, err_of (by decide +kernel)⟩, rfl, by decide +kernel, by decide +kernel⟩

example : (nafter nilSteps1).1.hooksOf 4 = [.reloadable, .export, .import, .onLoad] ∧ (nafter nilSteps1).1.currentInsts = [4, 2] ∧ (nafter nilSteps1).2 = [] := by decide +kernel
example : (nafter nilSteps2).1.hooksOf 4 = [.reloadable, .export, .import, .onLoad] ∧ (nafter nilSteps2).1.currentInsts = [4, 2] ∧ (nafter nilSteps2).1.counter = 2 := by decide +kernel
example : (nafter nilSteps3).1.hooksOf 4 = [.reloadable, .export, .import, .onLoad, .onFree] ∧ (nafter nilSteps3).1.currentInsts = [2] ∧ (nafter nilSteps3).1.begins = [1, 4] ∧ (nafter nilSteps3).2 = [] ∧
    (nafter nilSteps3).1.frees.all (fun t => t.todo.isEmpty && t.phase == .idle) = true := by decide +kernel

/-- The hypotheses of `C89_what_is_lost` and `C89_never_freed`: the call loses `base` (instance 2), which it had kept. -/
example : ((nafter nilSteps4).1.nstep cfg (.go .ret)).isSome = true ∧ (nafter nilSteps4).1.nilLoses (.go .ret) = [2] ∧ (nafter nilSteps4).1.currentInsts = [2, 1] := by decide +kernel

/-- In the end `base` is superseded, and not freed. -/
example : (nafter nilSteps5).2 = [2] ∧ (nafter nilSteps5).1.begins = [1] ∧ (nafter nilSteps5).1.refs 2 = 1 ∧ 2 ∈ (nafter nilSteps5).1.regs ∧ 2 ∉ (nafter nilSteps5).1.currentInsts ∧
    (nafter nilSteps5).1.running.isNone = true ∧ (nafter nilSteps5).1.frees.all (fun t => t.todo.isEmpty && t.phase == .idle) = true := by decide +kernel

end Examples

end Hotswap
