import Verif.Proofs.NilHist
import Verif.Spec.PanicNil
import Verif.Props.Demo
import Verif.Props.Schedule

/-!
# `panic(nil)` in a plugin: C86
-/

namespace Hotswap

section
variable [GoRuntime]

/-- A call that fails with the panic of a plugin, with the panic value nil. -/
structure NilPanic (cfg : Config) (env : Env) (k : Kind) (m : Machine) (n : Option Str) : Prop where
  ok : cfg.OK
  /-- anything may have happened before, this too -/
  reach : ∃ L, NReachable cfg m L
  /-- what the call returns for any other value -/
  fails : (plan cfg env k m.current m.next).res = .err (.panicked n .user)

theorem nilView {cfg : Config} (hcfg : cfg.OK) {m : Machine} (h : ∃ L, NReachable cfg m L) (env : Env) (k : Kind) :
    NilView cfg env k m.current m.next (plan cfg env k m.current m.next) (planNil cfg env k m.current m.next) :=
  plan_nilView hcfg (h.elim (fun _ h => h.sound hcfg))

/-- **C86.** If no panic of a plugin reaches `loadPlugins` the two semantics of `panic(nil)` do not differ. -/
theorem C86_otherwise_the_same {cfg : Config} (hcfg : cfg.OK) {m : Machine} {L : List Nat} (h : NReachable cfg m L) (env : Env) (k : Kind)
    (hno : ∀ n, (plan cfg env k m.current m.next).res ≠ .err (.panicked n .user)) : planNil cfg env k m.current m.next = plan cfg env k m.current m.next := by
  cases nilView hcfg ⟨L, h⟩ env k with
  | same eq no => exact eq
  | dyn absDir entries isDyn dir s0 sb f n cr failed body plug what res built next after => exact absurd res (hno n)
  | static sps sel st kl hsel s0 sb f n d cr failed body plug what res built next after => exact absurd res (hno n)

theorem low_of_body {l : List Act} (h : ∀ a ∈ l, a.stage ≤ 5) : (∀ i, Act.release i ∉ l) ∧ (∀ om, Act.spawnFree om ∉ l) ∧ publishes l = [] := by
  refine ⟨fun i hi => ?_, fun om hi => ?_, publishes_nil (fun a ha pm e => ?_)⟩
  · have := h _ hi; simp [Act.stage] at this
  · have := h _ hi; simp [Act.stage] at this
  · subst e; have := h _ ha; simp [Act.stage] at this

theorem low_cb {new : Nat} {old : Option Nat} {cbs : List (Nat × Outcome)} : (∀ i, Act.release i ∉ cbActs new old cbs) ∧ (∀ om, Act.spawnFree om ∉ cbActs new old cbs) ∧
    publishes (cbActs new old cbs) = [] ∧ (∀ i mid v, Act.callOnInit i mid v ∉ cbActs new old cbs) ∧ ∀ c ∈ cbs, Act.callback c.1 new old ∈ cbActs new old cbs := by
  have hs : ∀ a ∈ cbActs new old cbs, a.stage = 6 := fun a ha => mem_cbActs ha
  refine ⟨fun i hi => ?_, fun om hi => ?_, publishes_nil (fun a ha pm e => ?_), fun i mid v hi => ?_, fun c hc => List.mem_map.mpr ⟨c, hc, rfl⟩⟩
  · have := hs _ hi; simp [Act.stage] at this
  · have := hs _ hi; simp [Act.stage] at this
  · subst e; have := hs _ ha; simp [Act.stage] at this
  · have := hs _ hi; simp [Act.stage] at this

/-- If `HotswapLiveFuncs` or `HotswapLiveTypes` panics, no `OnInit` has been called. -/
theorem FinishFailed.no_init {s1 sb : LoadSt} {it : Iter} {data : Nat} (h : FinishFailed s1 it data (.inr .user) sb) (hs : ∀ a ∈ s1.acts, a.stage = 1) :
    ∀ i mid v, Act.callOnInit i mid v ∉ sb.acts := by
  obtain ⟨im, ol, lf, lt, oi, v0, hl⟩ := h.log
  have hoi : oi = [] := by
    by_contra hne
    obtain ⟨pre, a, hpre⟩ : ∃ pre a, initActs s1.pm.mid v0 oi = pre ++ [a] := by
      rcases List.eq_nil_or_concat (initActs s1.pm.mid v0 oi) with h | ⟨pre, a, h⟩
      · cases oi with
        | nil => exact absurd rfl hne
        | cons p r => simp [initActs] at h
      · exact ⟨pre, a, by rw [h, List.concat_eq_append]⟩
    have hlast : sb.acts.getLast? = some a := by
      rw [hl.acts, hpre]
      simp only [← List.append_assoc, List.getLast?_concat]
    obtain ⟨q, _, v', rfl⟩ := mem_initActs (show a ∈ initActs s1.pm.mid v0 oi by rw [hpre]; simp)
    obtain ⟨p, _, ⟨h1, _⟩ | ⟨h1, _⟩⟩ := h.last
    · rw [hlast] at h1; cases h1
    · rw [hlast] at h1; cases h1
  subst hoi
  intro i mid v hi
  rw [hl.acts] at hi
  simp only [List.mem_append, initActs, List.not_mem_nil, or_false] at hi
  rcases hi with hi | hi | hi | hi | hi
  · have := hs _ hi; simp [Act.stage] at this
  · obtain ⟨_, _, h⟩ := List.mem_map.mp hi; cases h
  · obtain ⟨_, _, h⟩ := List.mem_map.mp hi; cases h
  · obtain ⟨_, _, h⟩ := List.mem_map.mp hi; cases h
  · obtain ⟨_, _, h⟩ := List.mem_map.mp hi; cases h

/-- What a load was doing when a plugin panicked. -/
theorem plugin_panic_late {f : Fail} (hp : FromPlugin f) (hn : errOf f = .panicked none .user) {pm : Manager} (hf : FailOK pm f) : f = .inr .user := by
  cases f with
  | inl e =>
    simp only [errOf] at hn
    subst hn
    exact hf.elim
  | inr p =>
    cases p <;> simp [FromPlugin] at hp
    rfl

/-- **C86.** `HotswapLiveFuncs` or `HotswapLiveTypes` of a plugin panics with nil, and the callbacks are content: the call succeeds. The new manager is published although no `OnInit` was called; nothing is released, and the delayed free of the
old manager has begun. -/
theorem C86_live_panic {cfg : Config} {env : Env} {k : Kind} {m : Machine} (h : NilPanic cfg env k m none) (hcb : ∀ c ∈ callbacks cfg env k, c.2 = .ok) :
    Uninitialised cfg env k m.current (planNil cfg env k m.current m.next) := by
  have tail : ∀ (old : Option Manager) (det : Option Details) (s1 sb : LoadSt) (n0 : Nat), AfterNil (callbacks cfg env k) env.it k old det sb (planNil cfg env k m.current m.next) →
      BodyLog old n0 sb → (∃ d, det = some d) → FinishFailed s1 env.it env.data (.inr .user) sb → (∀ a ∈ s1.acts, a.stage = 1) → (planNil cfg env k m.current m.next).built = sb.pm →
      (cfg.static = none → old = m.current) → Uninitialised cfg env k m.current (planNil cfg env k m.current m.next) := ?_
  · cases nilView h.ok h.reach env k with
    | same eq no => exact absurd h.fails (no none)
    | dyn absDir entries isDyn dir s0 sb f n cr failed body plug what res built next after =>
      rw [h.fails] at res
      injection res with res
      injection res with hn
      subst hn
      cases failed with
      | early base why =>
        cases f with
        | inr p => exact why.elim
        | inl e =>
          simp only [errOf] at what
          subst what
          obtain ⟨_, ⟨_, h, _⟩ | ⟨_, f, _, _, h, _⟩⟩ := why <;> cases h
      | late s1 done why =>
        have hf := plugin_panic_late plug what why.fail
        subst hf
        refine tail _ _ s1 sb _ after body ?_ why done.base.stage built (fun _ => rfl)
        obtain ⟨d, hd, _⟩ := buildDetails_spec (pm := sb.pm) (files := listedFiles cfg absDir entries) (d0 := .empty) (by
          intro f hf
          obtain ⟨data, p, _, hp, _⟩ := done.fate f hf
          obtain ⟨_, _, e⟩ := why.frame.same.get _ p hp
          exact ⟨_, e⟩)
        exact ⟨d, hd⟩
    | static sps sel st kl hsel s0 sb f n d cr failed body plug what res built next after =>
      rw [h.fails] at res
      injection res with res
      injection res with hn
      subst hn
      cases failed with
      | early base why =>
        cases f with
        | inr p => exact why.elim
        | inl e =>
          simp only [errOf] at what
          subst what
          exact why.elim
      | late s1 done why =>
        have hf := plugin_panic_late plug what why.fail
        subst hf
        exact tail _ _ s1 sb _ after body ⟨d, rfl⟩ why done.base.stage built (fun h => by rw [st] at h; cases h)
  · intro old det s1 sb n0 after body hdet why hstage hbuilt hold
    cases after with
    | callback done n o rest split bad good acts res => exact absurd (hcb (n, o) (by rw [split]; simp)) bad
    | nilDeref good no acts res => obtain ⟨d, hd⟩ := hdet; rw [no] at hd; cases hd
    | published d good yes acts res =>
      obtain ⟨b1, b2, b3⟩ := low_of_body body.stage
      obtain ⟨c1, c2, c3, c4, c5⟩ := low_cb (new := sb.pm.mid) (old := old.map (·.mid)) (cbs := callbacks cfg env k)
      refine ⟨⟨d, res⟩, ?_, ?_, ?_, ?_, ?_, ?_⟩
      · rw [acts, hbuilt, publishes_append, publishes_append, b3, c3, publishes_append]
        cases old <;> cases k <;> rfl
      · intro i mid v hi
        rw [acts] at hi
        simp only [List.mem_append, List.mem_cons] at hi
        rcases hi with (hi | hi) | hi | hi | hi
        · exact why.no_init hstage _ _ _ hi
        · exact c4 _ _ _ hi
        · have := spawn_stage _ hi; simp [Act.stage] at this
        · cases hi
        · have := count_stage _ hi; simp [Act.stage] at this
      · intro i hi
        rw [acts] at hi
        simp only [List.mem_append, List.mem_cons] at hi
        rcases hi with (hi | hi) | hi | hi | hi
        · exact b1 _ hi
        · exact c1 _ hi
        · cases old <;> simp [spawnActs] at hi
        · cases hi
        · cases k <;> simp [countActs] at hi
      · obtain ⟨p, hp, hl⟩ := why.last
        rw [hbuilt, acts]
        refine ⟨p, hp, ?_⟩
        have hm : ∀ {a : Act}, sb.acts.getLast? = some a → a ∈ sb.acts := fun h => List.mem_of_getLast? h
        rcases hl with ⟨h1, h2⟩ | ⟨h1, h2⟩
        · exact .inl ⟨by simp [hm h1], h2⟩
        · exact .inr ⟨by simp [hm h1], h2⟩
      · intro c hc
        rw [acts, hbuilt]
        exact ⟨old.map (·.mid), List.mem_append_left _ (List.mem_append_right _ (c5 c hc))⟩
      · intro hst om hom
        rw [acts, hold hst, hom]
        simp [spawnActs]

/-- **C86.** The package initialisation of a plugin panics with nil, and the callbacks are content with a manager that lacks the plugin: the call panics with a nil dereference. Nothing is published, and the references that it has taken are not given back. -/
theorem C86_package_panic {cfg : Config} {env : Env} {k : Kind} {m : Machine} {n : Str} (h : NilPanic cfg env k m (some n)) (hcb : ∀ c ∈ callbacks cfg env k, c.2 = .ok) :
    LeftBehind cfg env k n (planNil cfg env k m.current m.next) := by
  cases nilView h.ok h.reach env k with
  | same eq no => exact absurd h.fails (no _)
  | dyn absDir entries isDyn dir s0 sb f n' cr failed body plug what res built next after =>
    rw [h.fails] at res
    injection res with res
    injection res with hn
    subst hn
    cases failed with
    | early base why =>
      cases f with
      | inr p => exact why.elim
      | inl e =>
        simp only [errOf] at what
        subst what
        obtain ⟨_, ⟨hc, _⟩ | ⟨_, f, hf, _, hc, hpan, hno, hlast⟩⟩ := why
        · cases hc
        cases hc
        cases after with
        | callback done n o rest split bad good acts res => exact absurd (hcb (n, o) (by rw [split]; simp)) bad
        | published d good yes acts res => exact absurd yes (by rw [buildDetails_none hf hno]; simp)
        | nilDeref good no acts res =>
          obtain ⟨b1, b2, b3⟩ := low_of_body body.stage
          obtain ⟨c1, c2, c3, c4, c5⟩ := low_cb (new := sb.pm.mid) (old := m.current.map (·.mid)) (cbs := callbacks cfg env k)
          refine ⟨res, ?_, ?_, ?_, ?_, ?_, ?_, f, hpan, rfl, ?_⟩
          · rw [acts, publishes_append, b3, c3]; rfl
          · intro i hi
            rw [acts, List.mem_append] at hi
            exact hi.elim (b1 i) (c1 i)
          · intro om hi
            rw [acts, List.mem_append] at hi
            exact hi.elim (b2 om) (c2 om)
          · rw [acts, acquired_cb, built]; exact body.acq
          · intro c hc
            rw [acts, built]
            exact ⟨_, List.mem_append_right _ (c5 c hc)⟩
          · rw [built]; exact hno
          · rw [acts]
            exact List.mem_append_left _ (List.mem_of_getLast? hlast)
    | late s1 done why =>
      cases f with
      | inl e =>
        simp only [errOf] at what
        subst what
        exact why.fail.elim
      | inr p => simp [errOf] at what
  | static sps sel st kl hsel s0 sb f n' d cr failed body plug what res built next after =>
    rw [h.fails] at res
    injection res with res
    injection res with hn
    subst hn
    cases failed with
    | early base why =>
      cases f with
      | inr p => exact why.elim
      | inl e =>
        simp only [errOf] at what
        subst what
        exact why.elim
    | late s1 done why =>
      cases f with
      | inl e =>
        simp only [errOf] at what
        subst what
        exact why.fail.elim
      | inr p => simp [errOf] at what

/-- **C86.** A callback that refuses the incomplete manager saves the day: the call returns an error, and everything it has taken is given back. -/
theorem C86_refused {cfg : Config} {env : Env} {k : Kind} {m : Machine} {n : Option Str} (h : NilPanic cfg env k m n) (hcb : ∃ c ∈ callbacks cfg env k, c.2 ≠ .ok) :
    GivenBack (planNil cfg env k m.current m.next) := by
  have tail : ∀ (old : Option Manager) (det : Option Details) (sb : LoadSt) (n0 : Nat), AfterNil (callbacks cfg env k) env.it k old det sb (planNil cfg env k m.current m.next) →
      BodyLog old n0 sb → GivenBack (planNil cfg env k m.current m.next) := ?_
  · cases nilView h.ok h.reach env k with
    | same eq no => exact absurd h.fails (no n)
    | dyn absDir entries isDyn dir s0 sb f n cr failed body plug what res built next after => exact tail _ _ sb _ after body
    | static sps sel st kl hsel s0 sb f n d cr failed body plug what res built next after => exact tail _ _ sb _ after body
  · intro old det sb n0 after body
    obtain ⟨c, hc, hbad⟩ := hcb
    cases after with
    | nilDeref good no acts res => exact absurd (good c hc) hbad
    | published d good yes acts res => exact absurd (good c hc) hbad
    | callback done n o rest split bad good acts res =>
      obtain ⟨rel, h1, h2, h3, _⟩ := body.cleanup env.it
      obtain ⟨_, _, b3⟩ := low_of_body body.stage
      refine ⟨res, ?_, _, rel, by rw [acts, h1], by rw [acquired_cb]; exact h2, h3⟩
      rw [acts, publishes_append, publishes_append, b3, low_cb.2.2.1, h1]
      exact publishes_nil (fun a ha pm e => by subst e; simp at ha)

end

namespace Demo

attribute [local instance] rt

/-- `app` has changed; its `HotswapLiveFuncs` panics. -/
def envLivePanic : Env := env both (fs 10 21 goodBase { goodApp with liveFuncs := .panics })
/-- `app` has changed; its package initialisation panics. -/
def envOpenPanic : Env := env ["base.so".toList, "app.so".toList] { fs 10 21 goodBase goodApp with openPlugin := fun f => if f = appFile then .panics else .err }

theorem err_of {r : Result} {e : Err} (h : error? r = some e) : r = .err e := by
  cases r <;> simp [error?] at h
  rw [h]

/-- The hypotheses of `C86_live_panic` and `C86_refused`: a reload, and what comes of it. -/
example : NilPanic cfg envLivePanic (.reload none) m1 none ∧ NilPanic cfg envLivePanic (.reload (some .err)) m1 none ∧ (∀ c ∈ callbacks cfg envLivePanic (.reload none), c.2 = .ok) ∧
    (∃ c ∈ callbacks cfg envLivePanic (.reload (some .err)), c.2 ≠ .ok) ∧
    details? (planNil cfg envLivePanic (.reload none) m1.current m1.next).res = some [(baseFile, "unchanged".toList), (appFile, "ok".toList)] ∧
    (publishes (planNil cfg envLivePanic (.reload none) m1.current m1.next).acts).map (fun pm => (pm.plugins.map (·.inst), pm.vault.liveFuncs.keys)) = [([2, 4], ["live_1".toList])] ∧
    ((planNil cfg envLivePanic (.reload (some .err)) m1.current m1.next).acts.filter (fun a => a.stage = 7)).length = 2 :=
  ⟨⟨cfg_ok, ⟨_, m1_reachable.nil cfg_ok⟩, err_of (by decide +kernel)⟩, ⟨cfg_ok, ⟨_, m1_reachable.nil cfg_ok⟩, err_of (by decide +kernel)⟩, by decide +kernel, ⟨(1, .err), by decide +kernel, by decide⟩, by decide +kernel, by decide +kernel,
    by decide +kernel⟩

/-- The hypotheses of `C86_package_panic`: the reference of `base` is not given back. -/
example : NilPanic cfg envOpenPanic (.reload none) m1 (some "app".toList) ∧ (∀ c ∈ callbacks cfg envOpenPanic (.reload none), c.2 = .ok) ∧
    acquired (planNil cfg envOpenPanic (.reload none) m1.current m1.next).acts = [2] :=
  ⟨⟨cfg_ok, ⟨_, m1_reachable.nil cfg_ok⟩, err_of (by decide +kernel)⟩, by decide +kernel, by decide +kernel⟩

/-- The hypothesis of `C86_otherwise_the_same`: a reload that succeeds, and one that fails in another way. -/
example : (∀ n, (plan cfg env2 (.reload none) m1.current m1.next).res ≠ .err (.panicked n .user)) ∧ (∀ n, (plan cfg env5 (.reload none) m1.current m1.next).res ≠ .err (.panicked n .user)) := by
  have h : error? (plan cfg env2 (.reload none) m1.current m1.next).res = none := by decide +kernel
  have h' : error? (plan cfg env5 (.reload none) m1.current m1.next).res = some (.hookErr "app".toList) := by decide +kernel
  refine ⟨fun n e => ?_, fun n e => ?_⟩
  · rw [e] at h; cases h
  · rw [e] at h'; cases h'

end Demo

end Hotswap
