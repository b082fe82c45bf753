import Verif.Proofs.Drain
import Verif.Proofs.LiveInv
import Verif.Props.Demo

/-!
# Properties of all histories and schedules

Everything here quantifies over every reachable state of the concurrent machine: every sequence of calls, every environment of
every call, and every interleaving with the free goroutines and the clock. `cfg.OK` says that statically linked plugins,
if any, have names that are distinct up to case; it is no restriction with dynamic plugins (`Demo.cfg_ok`).
-/

namespace Hotswap

section
variable [GoRuntime]

/-! ### C03 -/

/-- **C03.** The functions `Reloadable`, `Export`, `Import`, `OnLoad`, `OnInit`, `OnFree` are called at most once on every
instance, and in this order. -/
theorem C03_lifecycle {cfg : Config} (hcfg : cfg.OK) {m : Machine} (h : Reachable cfg m) (i : Nat) :
    (m.hooksOf i).Sublist [.reloadable, .export, .import, .onLoad, .onInit, .onFree] :=
  hooksOf_sublist hcfg h i

/-! ### C07 -/

/-- **C07.** Between the beginning of a call and its return with an error (or an escaping panic), and right after it: `Current()` and
`ReloadCounter()` give what they gave before, and no function of an instance of the current manager is called. -/
theorem C07_failed_call_changes_nothing {cfg : Config} (hcfg : cfg.OK) {m : Machine} (h : Reachable cfg m) {a b c : History} {t0 t1 : Nat}
    {k k' : Kind} {res : Result}
    (he : m.trace = a ++ (t0, .called k) :: (b ++ (t1, .returned k' res) :: c)) (hb : ∀ e ∈ b, e.2.isCall = false)
    (hfail : ∀ d, res ≠ .ok d) :
    (∀ t x, (t, Ev.observed x) ∈ b → x = (lastPublished a).map (·.mid)) ∧
    (∀ t n, (t, Ev.counted n) ∈ b → n = reloadsOk a) ∧
    lastPublished (a ++ (t0, .called k) :: (b ++ [(t1, .returned k' res)])) = lastPublished a ∧
    reloadsOk (a ++ (t0, .called k) :: (b ++ [(t1, .returned k' res)])) = reloadsOk a ∧
    (∀ pm, lastPublished a = some pm → ∀ i ∈ pm.insts, ∀ e ∈ b, ∀ g, evHook e.2 ≠ some (i, g)) := by
  obtain ⟨rfl, m0, env, htr, hl⟩ := completed h he hb
  subst htr
  have hv := link_plan hcfg hl
  have hinv0 := inv hcfg hl.reach
  obtain ⟨s1, s2, s3, s4⟩ := (hv.shape hl.accepted).of_failed (by rw [← hl.res_eq]; exact hfail)
  have hacts : actsOf b = (plan cfg env k' m0.current m0.next).acts := by simpa using hl.acts
  have hpub : ∀ b1 b2, b = b1 ++ b2 → ∀ pm, Act.publish pm ∉ actsOf b1 := by
    intro b1 b2 hbb pm hm
    refine s1 pm ?_
    rw [← hacts, hbb]
    unfold actsOf at hm ⊢
    rw [List.filterMap_append]
    exact List.mem_append_left _ hm
  have hret : ∀ e ∈ b, e.2.isReloadOk = false := by
    intro e heb
    obtain ⟨b1, b2, hbb⟩ := List.append_of_mem heb
    obtain ⟨m', r', _, hr', _, hres, htr', _, hc⟩ := hl.states b1 e b2 hbb
    rcases e with ⟨t, ev⟩
    have key : ∀ r : Running, m'.running = some r → (Ev.returned r.kind r.res).isReloadOk = false := by
      intro r run
      have e : r = r' := by rw [run] at hr'; exact Option.some.inj hr'
      rw [e]
      cases hk : r'.kind with
      | load => rfl
      | reload x =>
        cases hrr : r'.res with
        | ok d => exact absurd (hres ▸ hrr) (hfail d)
        | err e => rfl
        | panic p => rfl
    cases hc with
    | returned r run phase todo => exact key r run
    | _ => rfl
  have hcnt : ∀ b1 b2, b = b1 ++ b2 → reloadsOk (m0.trace ++ (t0, .called k') :: b1) = reloadsOk m0.trace := by
    intro b1 b2 hbb
    unfold reloadsOk
    rw [List.countP_append, List.countP_cons_of_neg (by simp [Ev.isReloadOk]),
      (List.countP_eq_zero (l := b1)).mpr (fun e h1 => by rw [hret e (by rw [hbb]; exact List.mem_append_left _ h1)]; simp)]
    rfl
  have hcur : ∀ {m' : Machine} {b1 b2 : History}, Reachable cfg m' → m'.trace = m0.trace ++ (t0, .called k') :: b1 → b = b1 ++ b2 →
      m'.current = lastPublished m0.trace := by
    intro m' b1 b2 hm' htr' hbb
    rw [current_eq hm', htr', lastPublished_frame (by simp) (hpub b1 b2 hbb)]
  refine ⟨?_, ?_, ?_, ?_, ?_⟩
  · intro t x hx
    obtain ⟨b1, b2, hbb⟩ := List.append_of_mem hx
    obtain ⟨m', r', hm', _, _, _, htr', _, hc⟩ := hl.states b1 _ b2 hbb
    cases hc
    rw [hcur hm' htr' hbb]
  · intro t n hx
    obtain ⟨b1, b2, hbb⟩ := List.append_of_mem hx
    obtain ⟨m', r', hm', hr', hk', hres', htr', _, hc⟩ := hl.states b1 _ b2 hbb
    cases hc
    rw [counter_eq hcfg hm', htr', hcnt b1 _ hbb, hr']
    have : inflight (some r') = 0 := hasCounted_fail (by rw [hres']; exact hfail)
    omega
  · have : m0.trace ++ (t0, .called k') :: (b ++ [(t1, .returned k' res)]) = (m0.trace ++ (t0, .called k') :: b) ++ [(t1, .returned k' res)] := by simp
    rw [this, lastPublished_snoc]
    exact lastPublished_frame (by simp) (hpub b [] (by simp))
  · have : m0.trace ++ (t0, .called k') :: (b ++ [(t1, .returned k' res)]) = (m0.trace ++ (t0, .called k') :: b) ++ [(t1, .returned k' res)] := by simp
    rw [this, reloadsOk_snoc, hcnt b [] (by simp)]
    have : (Ev.returned k' res).isReloadOk = false := by
      cases k' with
      | load => rfl
      | reload x => cases res <;> first | rfl | exact absurd rfl (hfail _)
    simp [this]
  · intro pm hpm i hi e heb g hg
    obtain ⟨b1, b2, hbb⟩ := List.append_of_mem heb
    obtain ⟨m', r', hm', hr', hk', hres', htr', _, hc⟩ := hl.states b1 e b2 hbb
    have hcur0 : m0.current = some pm := by rw [current_eq hl.reach, hpm]
    have hlt : i < m0.next := (hinv0.cur pm hcur0).1.fresh i hi
    rcases e with ⟨t, ev⟩
    cases ev with
    | act x =>
      have hx : x ∈ (plan cfg env k' m0.current m0.next).acts := by rw [← hacts]; exact mem_actsOf.mpr ⟨t, heb⟩
      have := s4 x hx i g hg
      omega
    | freeBegin j =>
      simp [evHook] at hg
      obtain ⟨rfl, _⟩ := hg
      cases hc with
      | begin _ hz =>
        refine failing_no_free hcfg hm' hr' (by rw [hres']; exact hfail) hz ?_
        unfold Machine.currentInsts
        rw [hcur hm' htr' hbb, hpm]
        exact hi
    | _ => cases hg

/-! ### C08 -/

/-- **C08**, for every schedule: if `OnFree` begins on an instance of the current manager, then the load that replaces this
manager has been suspended for the whole free delay between starting the delayed free and publishing the new manager. -/
theorem C08_free_of_current_needs_stall {cfg : Config} (hcfg : cfg.OK) {m : Machine} (h : Reachable cfg m) {a b : History} {t i : Nat} {pm : Manager}
    (he : m.trace = a ++ (t, .freeBegin i) :: b) (hc : lastPublished a = some pm) (hi : i ∈ pm.insts) :
    ∃ a1 T a2, a = a1 ++ (T, .act (.spawnFree pm)) :: a2 ∧ published a2 = [] ∧ T + cfg.delay ≤ t := by
  have := hist (cfg := cfg) (Q := fun a e => ∀ i pm, e.2 = .freeBegin i → lastPublished a = some pm → i ∈ pm.insts →
    ∃ a1 T a2, a = a1 ++ (T, .act (.spawnFree pm)) :: a2 ∧ published a2 = [] ∧ T + cfg.delay ≤ e.1) ?_ h a _ b he i pm rfl hc hi
  · exact this
  · intro m e hr hcause i pm hq hcur hi
    simp only at hq
    subst hq
    cases hcause with
    | begin _ hz =>
      have hcur' : m.current = some pm := by rw [current_eq hr, hcur]
      obtain ⟨a1, T, pm', a2, h1, h2, h3, h4⟩ := zero_of_current hcfg hr hz (by rw [Machine.currentInsts, hcur']; exact hi)
      rw [hcur'] at h3; cases h3
      exact ⟨a1, T, a2, h1, h2, h4⟩

/-- **C08.** Unless the program is suspended for the whole free delay (at least 15 s) at that one point, `OnFree` never begins on an
instance of the current manager. -/
theorem C08_never_frees_current_partial {cfg : Config} (hcfg : cfg.OK) {m : Machine} (h : Reachable cfg m) (hprompt : PromptHistory cfg.delay m.trace)
    {a b : History} {t i : Nat} {pm : Manager}
    (he : m.trace = a ++ (t, .freeBegin i) :: b) (hc : lastPublished a = some pm) : i ∉ pm.insts := by
  intro hi
  obtain ⟨a1, T, a2, h1, h2, h3⟩ := C08_free_of_current_needs_stall hcfg h he hc hi
  have := hprompt a1 T pm a2 t (.freeBegin i) b (by rw [he, h1]; simp) h2
  omega

/-- **C08**, second half, for every schedule: a manager that contains an instance whose `OnFree` has begun is never published. -/
theorem C08_never_publishes_freed {cfg : Config} (hcfg : cfg.OK) {m : Machine} (h : Reachable cfg m) {a b : History} {t t' i : Nat} {pm : Manager}
    (he : m.trace = a ++ (t, .act (.publish pm)) :: b) (hf : (t', Ev.freeBegin i) ∈ a) : i ∉ pm.insts := by
  have := hist (cfg := cfg) (Q := fun a e => ∀ i pm t', e.2 = .act (.publish pm) → (t', Ev.freeBegin i) ∈ a → i ∉ pm.insts) ?_ h a _ b he i pm t' rfl hf
  · exact this
  · intro m e hr hcause i pm t' hq hf hi
    simp only at hq
    subst hq
    cases hcause with
    | act r _ rest run phase todo =>
      have hinv := inv hcfg hr
      obtain ⟨_, _, hheld, _⟩ := hinv.publishing run todo
      have hb : i ∈ m.begins := by
        unfold Machine.begins Machine.events
        exact List.mem_filterMap.mpr ⟨_, List.mem_map.mpr ⟨_, hf, rfl⟩, rfl⟩
      have hone : m.once i = true := by
        have h1 := hinv.core.begins_eq i
        have h2 := List.count_pos_iff.mpr hb
        cases ho : m.once i with
        | true => rfl
        | false => rw [ho] at h1; simp at h1; omega
      refine (hinv.core.once_ok i hone).2 ?_
      unfold Machine.holds
      rw [run]
      simp [runHeld, hheld.mem_iff.mpr hi]

/-! ### C09 -/

/-- **C09.** The reference count of an instance is the number of managers that hold it. -/
theorem C09_refs_exact {cfg : Config} (hcfg : cfg.OK) {m : Machine} (h : Reachable cfg m) (i : Nat) : m.refs i = (m.holders i : Int) :=
  refs_holders hcfg h i

/-- **C09.** It is never negative. -/
theorem C09_refs_nonneg {cfg : Config} (hcfg : cfg.OK) {m : Machine} (h : Reachable cfg m) (i : Nat) : 0 ≤ m.refs i :=
  (inv hcfg h).core.nonneg i

/-- **C09.** It is positive for every instance of the current manager, unless publication is being delayed (see C08). -/
theorem C09_refs_positive {cfg : Config} (hcfg : cfg.OK) {m : Machine} (h : Reachable cfg m)
    (hprompt : ∀ due, m.pending = some due → m.now < due) {i : Nat} (hi : i ∈ m.currentInsts) : 0 < m.refs i := by
  have hinv := inv hcfg h
  rw [hinv.core.refs_eq]
  have : i ∈ m.holds := by
    cases hp : m.pending with
    | none => unfold Machine.holds Machine.curHeld; simp [hp, hi]
    | some due =>
      obtain ⟨a1, T0, pm, a2, e1, e2, e3, e4⟩ := pendingInv hcfg h due hp
      obtain ⟨t, h1, h2, h3⟩ := (delayInv hcfg h).spawned T0 pm (by rw [e1]; simp)
      have hip : i ∈ pm.insts := by rwa [Machine.currentInsts, e4] at hi
      rcases h3 i ((hinv.cur pm e4).1.release_perm.mem_iff.mpr hip) with hm | hm
      · unfold Machine.holds
        exact List.mem_append_left _ (List.mem_flatMap.mpr ⟨t, h1, hm⟩)
      · have := hprompt due hp; omega
  have := List.count_pos_iff.mpr this
  omega

/-! ### C10 -/

/-- **C10.** With dynamic plugins, when no call is running and all delayed frees are done, every instance ever entered in a manager that
is not in the current one has had `OnFree` called exactly once (and it has returned); those of the current manager have not been freed. -/
theorem C10_no_leak {cfg : Config} (hcfg : cfg.OK) (hdyn : cfg.static = none) {m : Machine} (h : Reachable cfg m) (hq : m.Quiet) {i : Nat}
    (hi : i ∈ m.regs) : if i ∈ m.currentInsts then m.begins.count i = 0 else m.begins.count i = 1 ∧ m.ends.count i = 1 :=
  quiet_freed hcfg hdyn h hq hi

/-- **C10.** At any time `OnFree` has been called at most once on any instance. -/
theorem C10_at_most_once {cfg : Config} (hcfg : cfg.OK) {m : Machine} (h : Reachable cfg m) (i : Nat) : m.begins.count i ≤ 1 := by
  rw [(inv hcfg h).core.begins_eq i]; split <;> omega

/-- **C10.** From every reachable state the program can come to rest without any further call. -/
theorem C10_quiescence_reachable {cfg : Config} (m : Machine) :
    ∃ ls m', m.steps cfg ls = some m' ∧ m'.Quiet ∧ ∀ l ∈ ls, l.isCall = false :=
  drain _ m rfl

/-! ### C11 -/

/-- **C11.** If instance `d` was bound to its dependency `q` in a manager whose plugins were ordered (every successful load,
and every failed one that got past `Import`), `OnFree` of `q` begins only after `OnFree` of `d` has returned. -/
theorem C11_dependents_first {cfg : Config} (hcfg : cfg.OK) {m : Machine} (h : Reachable cfg m) {pm : Manager} (hpm : pm ∈ m.builts)
    (hne : pm.ordered ≠ []) {d q : Nat} (hb : BoundIn pm d q) {a b : History} {t : Nat} (he : m.trace = a ++ (t, .freeBegin q) :: b) :
    ∃ t', (t', Ev.freeEnd d) ∈ a :=
  free_order hcfg h pm hpm hne d q hb a t b he

/-! ### C12 -/

/-- **C12.** `OnFree` begins on an instance that was part of a published manager only if the load that superseded this manager
started its delayed free at least max(15 s, `WithFreeDelay`) before. -/
theorem C12_free_delay {cfg : Config} (hcfg : cfg.OK) {m : Machine} (h : Reachable cfg m) {a b : History} {t T i : Nat} {pm : Manager}
    (he : m.trace = a ++ (t, .freeBegin i) :: b) (hp : (T, Ev.act (.publish pm)) ∈ a) (hi : i ∈ pm.insts) :
    ∃ T0, (T0, Ev.act (.spawnFree pm)) ∈ a ∧ T0 + max 15000000000 cfg.freeDelay ≤ t := by
  have := hist (cfg := cfg) (Q := fun a e => ∀ i pm T, e.2 = .freeBegin i → (T, Ev.act (.publish pm)) ∈ a → i ∈ pm.insts →
    ∃ T0, (T0, Ev.act (.spawnFree pm)) ∈ a ∧ T0 + cfg.delay ≤ e.1) ?_ h a _ b he i pm T rfl hp hi
  · obtain ⟨T0, h1, h2⟩ := this
    refine ⟨T0, h1, ?_⟩
    have : cfg.delay = max 15000000000 cfg.freeDelay := by
      unfold Config.delay minFreeDelay
      split <;> omega
    rw [← this]; exact h2
  · intro m e hr hcause i pm T hq hp hi
    simp only at hq
    subst hq
    cases hcause with
    | begin _ hz => exact (delayed hcfg hr hz hp hi).2

/-- **C12.** A delayed free is started only for the current manager. -/
theorem C12_spawn_of_current {cfg : Config} (hcfg : cfg.OK) {m : Machine} (h : Reachable cfg m) {a b : History} {t : Nat} {pm : Manager}
    (he : m.trace = a ++ (t, .act (.spawnFree pm)) :: b) : lastPublished a = some pm := by
  have := hist (cfg := cfg) (Q := fun a e => ∀ pm, e.2 = .act (.spawnFree pm) → lastPublished a = some pm) ?_ h a _ b he pm rfl
  · exact this
  · intro m e hr hcause pm hq
    simp only at hq
    subst hq
    cases hcause with
    | act r _ rest run phase todo =>
      obtain ⟨new, d, hc, _⟩ := (inv hcfg hr).after_spawn run todo
      rw [← current_eq hr, hc]

/-! ### C13 -/

/-- **C13.** `ReloadCounter()` returns the number of reloads that have returned nil, or one more if the reload now running is
about to return nil. -/
theorem C13_counter_exact {cfg : Config} (hcfg : cfg.OK) {m : Machine} (h : Reachable cfg m) {a b : History} {t n : Nat}
    (he : m.trace = a ++ (t, .counted n) :: b) :
    n = reloadsOk a ∨ (n = reloadsOk a + 1 ∧ ∃ x, openCall a = some (.reload x)) := by
  have := hist (cfg := cfg) (Q := fun a e => ∀ n, e.2 = .counted n → n = reloadsOk a ∨ (n = reloadsOk a + 1 ∧ ∃ x, openCall a = some (.reload x))) ?_ h a _ b he n rfl
  · exact this
  · intro m e hr hcause n hq
    simp only at hq
    subst hq
    cases hcause with
    | counted =>
      have hc := counter_eq hcfg hr
      have ho := openCall_eq hr
      cases hrun : m.running with
      | none => rw [hrun] at hc; left; simpa [inflight] using hc
      | some r =>
        rw [hrun] at hc ho
        by_cases h0 : inflight (some r) = 0
        · left; omega
        · right
          have h0' : hasCounted r.kind r.res r.todo ≠ 0 := h0
          cases hk : r.kind with
          | load => rw [hk] at h0'; exact absurd rfl h0'
          | reload x =>
            refine ⟨?_, x, ?_⟩
            · have : inflight (some r) = 1 := by
                change hasCounted r.kind r.res r.todo = 1
                revert h0'
                rw [hk]
                cases r.res <;> cases r.todo <;> simp [hasCounted]
              omega
            · rw [ho]
              simp [hk]

/-- **C13.** When no call is running the counter is exactly the number of reloads that returned nil. -/
theorem C13_counter_idle {cfg : Config} (hcfg : cfg.OK) {m : Machine} (h : Reachable cfg m) (hr : m.running = none) :
    m.counter = reloadsOk m.trace := by
  rw [counter_eq hcfg h, hr]; rfl

/-- **C13.** Successive values of `ReloadCounter()` never decrease. -/
theorem C13_counter_monotone {cfg : Config} {m : Machine} (h : Reachable cfg m) {a b c : History} {t t' n n' : Nat}
    (he : m.trace = a ++ (t, .counted n) :: (b ++ (t', .counted n') :: c)) : n ≤ n' := by
  have := hist (cfg := cfg) (Q := fun a e => ∀ n' t n, e.2 = .counted n' → (t, Ev.counted n) ∈ a → n ≤ n') ?_ h
    (a ++ (t, .counted n) :: b) (t', .counted n') c (by rw [he]; simp) n' t n rfl (by simp)
  · exact this
  · intro m e hr hcause n' t n hq hm
    simp only at hq
    subst hq
    cases hcause with
    | counted =>
      refine Reachable.ind (P := fun m => ∀ t n, (t, Ev.counted n) ∈ m.trace → n ≤ m.counter) (by simp [Machine.init]) ?_ hr t n hm
      intro m m' l hr ih hs t n hm
      have hle : m.counter ≤ m'.counter := by rcases hs.counter with h | ⟨h, _⟩ <;> omega
      rcases hs.emits with ht | ⟨e, ht, hc⟩
      · rw [ht] at hm; exact Nat.le_trans (ih t n hm) hle
      · rw [ht] at hm
        rcases List.mem_append.mp hm with hm | hm
        · exact Nat.le_trans (ih t n hm) hle
        · simp at hm
          obtain ⟨_, rfl⟩ := hm
          cases hc; exact hle

/-! ### C29 -/

/-- **C29.** A call ends in a panic only if the user's extension newer panicked; whatever plugin functions and callbacks do,
it returns. -/
theorem C29_no_escaping_panic {cfg : Config} (hcfg : cfg.OK) {m : Machine} (h : Reachable cfg m) {a b : History} {t : Nat} {k : Kind} {p : Panic}
    (he : m.trace = a ++ (t, .returned k (.panic p)) :: b) : cfg.hasNewExt = true ∧ p = .user := by
  obtain ⟨m0, env, t0, c, hl⟩ := executed h a t k _ b he
  have hv := link_plan hcfg hl
  have hr := hl.res_eq
  cases hv with
  | escaped ext panics acts res next built => rw [res] at hr; cases hr; exact ⟨ext, rfl⟩
  | listErr e dyn why acts res => rw [res] at hr; cases hr
  | empty absDir entries dyn dir wl none acts res => rw [res] at hr; cases hr
  | dynErr absDir entries dyn dir wl some s0 sb f cr failed body acts res => rw [res] at hr; cases hr
  | dynCb absDir entries dyn dir wl some s0 s1 s cr done cbs n o rest split bad good acts res => rw [res] at hr; cases hr
  | dynOk absDir entries dyn dir wl some s0 s1 s d cr done good details acts res => rw [res] at hr; cases hr
  | staticMissing sps e st kl sel acts res => rw [res] at hr; cases hr
  | staticErr sps sel st kl hsel s0 sb f cr failed body acts res => rw [res] at hr; cases hr
  | staticCb sps sel st kl hsel s0 s1 s cr done cbs n o rest split bad good acts res => rw [res] at hr; cases hr
  | staticOk sps sel st kl hsel s0 s1 s d cr done good details acts res => rw [res] at hr; cases hr

/-! ### C31 -/

/-- **C31.** Under static linking a `Reload` changes nothing but the record that it was refused, whatever the state (it does not
even wait for the lock). -/
theorem C31_reload_refused {cfg : Config} (hst : cfg.static.isSome = true) (m : Machine) (x : Option Outcome) (env : Env) :
    m.step cfg (.call (.reload x) env) = some { m with trace := m.trace ++ [(m.now, .refused)] } := by
  simp [Machine.step, refused, hst, Machine.log]

/-- **C31.** Under static linking `OnFree` is never called on an instance that was published, and no free goroutine is started. -/
theorem C31_static_never_freed {cfg : Config} (hcfg : cfg.OK) (hst : cfg.static.isSome = true) {m : Machine} (h : Reachable cfg m) :
    m.frees = [] ∧ ∀ a t i b, m.trace = a ++ (t, .freeBegin i) :: b → ∀ T pm, (T, Ev.act (.publish pm)) ∈ m.trace → i ∉ pm.insts := by
  refine ⟨((delayInv hcfg h).static hst).1, ?_⟩
  intro a t i b he T pm hp hi
  have hinv := inv hcfg h
  obtain ⟨h1, h2, h3⟩ := (delayInv hcfg h).static hst
  have hb : i ∈ m.begins := by
    unfold Machine.begins Machine.events
    rw [he]
    exact List.mem_filterMap.mpr ⟨.freeBegin i, by simp, rfl⟩
  have hone : m.once i = true := by
    have h1 := hinv.core.begins_eq i
    have h2 := List.count_pos_iff.mpr hb
    cases ho : m.once i with
    | true => rfl
    | false => rw [ho] at h1; simp at h1; omega
  refine (hinv.core.once_ok i hone).2 ?_
  unfold Machine.holds Machine.curHeld
  rw [h2]
  rcases List.mem_append.mp (h3 T pm hp i hi) with h | h <;> simp [h]

/-! ### C38 -/

/-- **C38.** Calls that take the lock do not overlap: when one begins, none is open. -/
theorem C38_serialised {cfg : Config} {m : Machine} (h : Reachable cfg m) {a b : History} {t : Nat} {k : Kind}
    (he : m.trace = a ++ (t, .called k) :: b) : openCall a = none := by
  have := hist (cfg := cfg) (Q := fun a e => ∀ k, e.2 = .called k → openCall a = none) ?_ h a _ b he k rfl
  · exact this
  · intro m e hr hcause k hq
    simp only at hq
    subst hq
    cases hcause with
    | called _ _ run => rw [openCall_eq hr, run]; rfl

/-- **C38.** Every action happens while the call that performs it is open. -/
theorem C38_acts_inside_calls {cfg : Config} {m : Machine} (h : Reachable cfg m) {a b : History} {t : Nat} {x : Act}
    (he : m.trace = a ++ (t, .act x) :: b) : openCall a ≠ none := by
  have := hist (cfg := cfg) (Q := fun a e => ∀ x, e.2 = .act x → openCall a ≠ none) ?_ h a _ b he x rfl
  · exact this
  · intro m e hr hcause x hq
    simp only at hq
    subst hq
    cases hcause with
    | act r _ rest run phase todo => rw [openCall_eq hr, run]; simp

/-- **C38.** `Current()` always returns the manager published last. -/
theorem C38_current_is_last_published {cfg : Config} {m : Machine} (h : Reachable cfg m) {a b : History} {t : Nat} {x : Option Nat}
    (he : m.trace = a ++ (t, .observed x) :: b) : x = (lastPublished a).map (·.mid) := by
  have := hist (cfg := cfg) (Q := fun a e => ∀ x, e.2 = .observed x → x = (lastPublished a).map (·.mid)) ?_ h a _ b he x rfl
  · exact this
  · intro m e hr hcause x hq
    simp only at hq
    subst hq
    cases hcause with
    | observed => rw [current_eq hr]

/-- **C38.** A call works with the manager published last before it began as old manager, and performs exactly the actions of the
sequential program `plan`. -/
theorem C38_call_executes_plan {cfg : Config} {m : Machine} (h : Reachable cfg m) {a b c : History} {t0 t1 : Nat} {k k' : Kind} {res : Result}
    (he : m.trace = a ++ (t0, .called k) :: (b ++ (t1, .returned k' res) :: c)) (hb : ∀ e ∈ b, e.2.isCall = false) :
    k' = k ∧ ∃ env next, actsOf b = (plan cfg env k (lastPublished a) next).acts ∧ res = (plan cfg env k (lastPublished a) next).res := by
  obtain ⟨hk, m0, env, htr, hl⟩ := completed h he hb
  refine ⟨hk, env, m0.next, ?_, ?_⟩
  · rw [← htr, ← current_eq hl.reach]; simpa using hl.acts
  · rw [← htr, ← current_eq hl.reach]; exact hl.res_eq

/-- **C38.** Only the manager built by a call that succeeds is ever published: a published manager is complete and well-formed. -/
theorem C38_published_is_good {cfg : Config} (hcfg : cfg.OK) {m : Machine} (h : Reachable cfg m) {t : Nat} {pm : Manager}
    (he : (t, Ev.act (.publish pm)) ∈ m.trace) : GoodManager m.next pm :=
  ((delayInv hcfg h).published t pm he).2.good ((liveInv hcfg h).published t pm he)

/-- **C38.** The call that holds the lock is never blocked: its next step is always possible, and only finitely many remain. -/
theorem C38_running_call_progresses {cfg : Config} {m : Machine} (hr : m.running.isSome = true) :
    ∃ l m', (l = Label.act ∨ l = Label.ret) ∧ m.step cfg l = some m' ∧ m'.weight < m.weight := by
  obtain ⟨r, hr⟩ := Option.isSome_iff_exists.mp hr
  obtain ⟨l, m', h1, h2, h3⟩ := run_step (cfg := cfg) hr
  exact ⟨l, m', h1, h2.enabled, h3⟩

/-- A call can begin whenever none is running. -/
theorem C38_call_enabled {cfg : Config} {m : Machine} (hr : m.running = none) (k : Kind) (env : Env) : ∃ m', m.step cfg (.call k env) = some m' := by
  unfold Machine.step
  simp only [hr]
  split <;> exact ⟨_, rfl⟩

end

/-! ### The hypotheses are met by real executions -/

section Examples
open Demo
attribute [local instance] Demo.rt

theorem split_begin {m : Machine} {i : Nat} (h : i ∈ m.begins) : ∃ a t b, m.trace = a ++ (t, .freeBegin i) :: b := by
  unfold Machine.begins Machine.events at h
  obtain ⟨e, he, hi⟩ := List.mem_filterMap.mp h
  obtain ⟨⟨t, e'⟩, ht, rfl⟩ := List.mem_map.mp he
  cases e' <;> simp at hi
  subst hi
  obtain ⟨a, b, hab⟩ := List.append_of_mem ht
  exact ⟨a, t, b, hab⟩

/-- C03: instance 4 goes through the whole life cycle. -/
example : Reachable cfg m5 ∧ m5.hooksOf 4 = lifecycle := ⟨m5_reachable, m5_facts.2.2.2.2.2⟩

def asCall : Nat × Ev → Bool
  | (_, .called _) => true
  | _ => false

def asFailure : Nat × Ev → Bool
  | (_, .returned _ (.err _)) => true
  | _ => false

theorem split_call {tr : History} (i j : Nat) (hij : i < j) (hc : (tr[i]?).any asCall = true) (hr : (tr[j]?).any asFailure = true)
    (hm : ((tr.take j).drop (i + 1)).all (fun e => !e.2.isCall) = true) :
    ∃ b c t0 t1 k k' e, tr = tr.take i ++ (t0, .called k) :: (b ++ (t1, .returned k' (.err e)) :: c) ∧ (∀ x ∈ b, x.2.isCall = false) := by
  have key : ∀ n x, tr[n]? = some x → tr = tr.take n ++ x :: tr.drop (n + 1) := by
    intro n x hx
    obtain ⟨h, rfl⟩ := List.getElem?_eq_some_iff.mp hx
    rw [List.getElem_cons_drop h, List.take_append_drop]
  cases h1 : tr[i]? with
  | none => rw [h1] at hc; cases hc
  | some x =>
    cases h2 : tr[j]? with
    | none => rw [h2] at hr; cases hr
    | some y =>
      rw [h1] at hc; rw [h2] at hr
      obtain ⟨t0, x⟩ := x
      obtain ⟨t1, y⟩ := y
      cases x with
      | called k =>
        cases y with
        | returned k' r =>
          cases r with
          | err e =>
            refine ⟨(tr.take j).drop (i + 1), tr.drop (j + 1), t0, t1, k, k', e, ?_, ?_⟩
            · have h3 := key j _ h2
              have hlen : j < tr.length := (List.getElem?_eq_some_iff.mp h2).1
              have h4 : (tr.take j)[i]? = some (t0, .called k) := by rw [List.getElem?_take, if_pos hij]; exact h1
              have h5 : tr.take j = (tr.take j).take i ++ (t0, .called k) :: (tr.take j).drop (i + 1) := by
                obtain ⟨h, hh⟩ := List.getElem?_eq_some_iff.mp h4
                rw [← hh, List.getElem_cons_drop h, List.take_append_drop]
              rw [List.take_take, Nat.min_eq_left (Nat.le_of_lt hij)] at h5
              rw [h5] at h3
              simpa using h3
            · intro x hx
              simpa using List.all_eq_true.mp hm x hx
          | _ => cases hr
        | _ => cases hr
      | _ => cases hc

/-- C07, C29: in `m3` the last call is a reload that returned an error after calling `OnInit` and `OnFree` of its new instance, while a manager
with two plugins was current. -/
example : Reachable cfg m3 ∧ (∃ b c t0 t1 k k' e, m3.trace = m3.trace.take 40 ++ (t0, .called k) :: (b ++ (t1, .returned k' (.err e)) :: c) ∧
    (∀ x ∈ b, x.2.isCall = false)) ∧ ((lastPublished (m3.trace.take 40)).map Manager.insts = some [4, 2]) :=
  ⟨m3_reachable, split_call 40 57 (by decide) (by decide +kernel) (by decide +kernel) (by decide +kernel), by decide +kernel⟩

/-- C08 (and C10, C11, C12): frees of superseded instances happen, long after another manager was published. -/
example : Reachable cfg m5 ∧ ∃ a t b, m5.trace = a ++ (t, .freeBegin 4) :: b := ⟨m5_reachable, split_begin (by rw [m5_facts.2.1]; simp)⟩

def isSpawn : Ev → Bool
  | .act (.spawnFree _) => true
  | _ => false

def isPublish : Ev → Bool
  | .act (.publish _) => true
  | _ => false

/-- Publication follows the start of the delayed free at once. -/
def promptCheck : History → Bool
  | x :: y :: r => (!isSpawn x.2 || (isPublish y.2 && x.1 == y.1)) && promptCheck (y :: r)
  | _ => true

theorem prompt_of_check {d : Nat} (hd : 0 < d) {tr : History} (h : promptCheck tr = true) : PromptHistory d tr := by
  intro a1 T pm a2 t e a3 he hp
  have key : ∀ (a1 : History) {tr : History} x y r, promptCheck tr = true → tr = a1 ++ x :: y :: r → isSpawn x.2 = true → isPublish y.2 = true ∧ x.1 = y.1 := by
    intro a1
    induction a1 with
    | nil =>
      intro tr x y r hc he hs
      subst he
      rw [List.nil_append] at hc
      unfold promptCheck at hc
      simp [hs] at hc
      exact hc.1
    | cons z a1 ih =>
      intro tr x y r hc he hs
      subst he
      cases a1 with
      | nil =>
        simp only [List.cons_append, List.nil_append] at hc
        unfold promptCheck at hc
        simp at hc
        exact ih x y r (by simpa using hc.2) rfl hs
      | cons w a1 =>
        simp only [List.cons_append] at hc
        unfold promptCheck at hc
        simp at hc
        exact ih x y r (by simpa using hc.2) rfl hs
  cases a2 with
  | nil =>
    have := key a1 _ _ _ h he rfl
    simp at this
    omega
  | cons y a2 =>
    have := (key a1 _ _ _ h he rfl).1
    obtain ⟨t', y⟩ := y
    cases y with
    | act x => cases x <;> simp [isPublish] at this; simp [published] at hp
    | _ => simp [isPublish] at this

/-- C08: the run of `m5` is prompt, and it frees three instances. -/
example : Reachable cfg m5 ∧ PromptHistory cfg.delay m5.trace ∧ m5.begins = [6, 1, 4] :=
  ⟨m5_reachable, prompt_of_check (by decide) (by decide +kernel), m5_facts.2.1⟩

/-- A reload that is suspended for 15 s between starting the delayed free and publishing. -/
def stallSteps : List Label := steps1 ++ [.call (.reload none) env2] ++ List.replicate 14 .act ++ [.tick 15000000000, .free 0, .free 0]

def mStall : Machine := after cfg stallSteps

/-- **C08**, why promptness is needed: `OnFree` is called on a plugin of the manager that `Current()` returns. -/
theorem C08_stall_frees_current : ∃ m : Machine, Reachable cfg m ∧ ∃ a t i b pm, m.trace = a ++ (t, .freeBegin i) :: b ∧ lastPublished a = some pm ∧ i ∈ pm.insts := by
  have hr : Reachable cfg mStall := after_reachable (by decide +kernel)
  have hb : mStall.begins = [1] := by decide +kernel
  obtain ⟨a, t, b, h⟩ := split_begin (m := mStall) (i := 1) (by rw [hb]; simp)
  have hcur : mStall.currentInsts = [2, 1] := by decide +kernel
  have hlast : (mStall.trace.getLast?).map (fun e => evHook e.2) = some (some (1, .onFree)) := by decide +kernel
  refine ⟨mStall, hr, mStall.trace.dropLast, ?_⟩
  cases hl : mStall.trace.getLast? with
  | none => rw [hl] at hlast; cases hlast
  | some e =>
    rw [hl] at hlast
    obtain ⟨t, e⟩ := e
    have he : e = .freeBegin 1 := by
      cases e with
      | act x => cases x <;> simp [evHook, hookOf] at hlast
      | freeBegin j => simp [evHook] at hlast; rw [hlast]
      | _ => simp [evHook] at hlast
    subst he
    have htr : mStall.trace = mStall.trace.dropLast ++ [(t, .freeBegin 1)] := by
      obtain ⟨x, hx⟩ := List.getLast?_eq_some_iff.mp hl
      rw [hx]; simp
    have hcur' := current_eq hr
    rw [htr, lastPublished_snoc] at hcur'
    unfold Machine.currentInsts at hcur
    cases hm : mStall.current with
    | none => rw [hm] at hcur; cases hcur
    | some pm =>
      rw [hm] at hcur hcur'
      have hcur2 : pm.insts = [2, 1] := hcur
      exact ⟨t, 1, [], pm, htr, hcur'.symm, by rw [hcur2]; simp⟩

/-- C09: an instance held by two managers, and one held by the current manager only. -/
example : Reachable cfg m2 ∧ m2.refs 2 = 2 ∧ Reachable cfg m5 ∧ m5.refs 2 = 1 ∧ 2 ∈ m5.currentInsts ∧ m5.pending = none :=
  ⟨m2_reachable, m2_facts.2.2.2, m5_reachable, m5_facts.2.2.2.2.1, by rw [m5_facts.1]; simp, by decide +kernel⟩

/-- C10: `m5` is at rest; instances 1, 4 and 6 (the last one of a failed load) were freed. -/
example : Reachable cfg m5 ∧ m5.Quiet ∧ m5.regs = [1, 2, 4, 6] := by
  refine ⟨m5_reachable, ⟨?_, ?_⟩, by decide +kernel⟩
  · have : m5.running.isNone = true := by decide +kernel
    exact Option.isNone_iff_eq_none.mp this
  · have : m5.frees.all (fun t => t.todo.isEmpty && t.phase == .idle) = true := by decide +kernel
    intro t ht
    have := List.all_eq_true.mp this t ht
    simp at this
    exact this

/-- All plugins of the demo vanish: both are freed. -/
def steps6 : List Label :=
  steps1 ++ callSteps (.reload none) (env ["other.so".toList] { fs 0 0 goodBase goodApp with
    readFile := fun _ => some 5
    openPlugin := fun _ => .image syms goodBase }) 13 ++ [.tick 15000000000] ++ List.replicate 6 (.free 0)

/-- C11: instance 1 (`app`) is bound to instance 2 (`base`); both are freed, in this order. -/
example : ∃ m : Machine, Reachable cfg m ∧ (∃ pm ∈ m.builts, pm.ordered ≠ [] ∧ BoundIn pm 1 2) ∧ m.begins = [1, 2] := by
  refine ⟨after cfg steps6, after_reachable (by decide +kernel), ?_, by decide +kernel⟩
  have h : (after cfg steps6).builts.any (fun pm => !pm.ordered.isEmpty && pm.pluginMap.entries.any (fun e => e.2.inst == 1 && e.2.bound.any (fun b => b.dep == 2))) = true := by
    decide +kernel
  obtain ⟨pm, hpm, h⟩ := List.any_eq_true.mp h
  simp at h
  obtain ⟨h1, k, p, h2, h3, b, h4, h5⟩ := h
  exact ⟨pm, hpm, h1, k, p, GoMap.get?_eq_some.mpr h2, h3, b, h4, h5⟩

/-- C13, C38: readers see the counter and the current manager. -/
example : Reachable cfg m5 ∧ m5.trace.any (fun e => match e.2 with | .counted 1 => true | _ => false) = true ∧
    m5.trace.any (fun e => match e.2 with | .observed (some _) => true | _ => false) = true :=
  ⟨m5_reachable, by decide +kernel, by decide +kernel⟩

/-- C31: a static configuration with one plugin; it loads, and is published again by a second call. -/
def staticCfg : Config where
  whitelist := []
  static := some (GoMap.empty.insert "base".toList ⟨"base".toList, fun _ => false, goodBase⟩)
  freeDelay := 0
  hasCallback := false
  hasNewExt := false

theorem staticCfg_ok : staticCfg.OK := by
  intro sps h
  cases h
  unfold StaticOK
  decide +kernel

/-- C31 -/
example : ∃ m : Machine, staticCfg.OK ∧ staticCfg.static.isSome = true ∧ Reachable staticCfg m ∧ m.abandoned = [1] ∧ m.currentInsts = [3] ∧ (published m.trace).length = 2 ∧
    m.begins = [] := by
  refine ⟨after staticCfg (callSteps .load env1 9 ++ callSteps .load env1 9 ++ [.call (.reload none) env1]), staticCfg_ok, rfl, after_reachable (by decide +kernel), ?_, ?_, ?_, ?_⟩ <;> decide +kernel

end Examples

end Hotswap
