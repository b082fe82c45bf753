import Verif.Props.Imports
import Verif.Props.Schedule

/-!
# The vault: C22, C23, C24, C25
-/

namespace Hotswap

section
variable [GoRuntime]

/-- The plugin declares the live function `name` with this value. -/
def DeclaresFunc (p : Plugin) (name : Str) (v : Val) : Prop := ∃ m, p.code.liveFuncs = .ret (some m) ∧ m.get? name = some v
/-- The plugin declares the live type `name` with this value. -/
def DeclaresType (p : Plugin) (name : Str) (v : Val) : Prop := ∃ m, p.code.liveTypes = .ret (some m) ∧ m.get? name = some v

/-! ### helper lemmas -/

omit [GoRuntime] in
theorem initCalls_append (a b : List Act) : initCalls (a ++ b) = initCalls a ++ initCalls b := List.filter_append ..

omit [GoRuntime] in
theorem initCalls_nil {l : List Act} (h : ∀ a ∈ l, a.stage ≠ 5) : initCalls l = [] := by
  unfold initCalls
  rw [List.filter_eq_nil_iff]
  intro a ha
  cases a with
  | callOnInit i mid v => exact absurd rfl (h _ ha)
  | _ => simp

theorem initCalls_initActs (mid : Nat) (v : Vault) (l : List Plugin) : initCalls (initActs mid v l) = initActs mid v l := by
  induction l generalizing v with
  | nil => rfl
  | cons p r ih =>
    unfold initActs
    have := ih (v := (p.code.onInit v).2)
    unfold initCalls at this ⊢
    simp [this]

/-- The `OnInit` calls of a load that got beyond the first phase. -/
theorem Body.initCalls {cfg : Config} {env : Env} {old : Option Manager} {n0 : Nat} {p : Plan} {s0 s1 sb : LoadSt} {im : List Str} {ol lf lt oi : List Plugin} {v0 : Vault}
    (h : Body cfg env old n0 p s0 s1 sb im ol lf lt oi v0) : initCalls p.acts = initActs sb.pm.mid v0 oi := by
  obtain ⟨tail, hacts, htail⟩ := h.acts
  rw [hacts, h.log.acts]
  have e0 := initCalls_nil (l := s1.acts) (fun a ha => by rw [h.stage1 a ha]; decide)
  have e1 := initCalls_nil (l := (im.filterMap (importInst s1.pm.pluginMap)).map Act.callImport) (fun a ha => by obtain ⟨_, _, rfl⟩ := List.mem_map.mp ha; simp [Act.stage])
  have e2 := initCalls_nil (l := ol.map (fun p => Act.callOnLoad p.inst env.data)) (fun a ha => by obtain ⟨_, _, rfl⟩ := List.mem_map.mp ha; simp [Act.stage])
  have e3 := initCalls_nil (l := lf.map (fun p => Act.callLiveFuncs p.inst)) (fun a ha => by obtain ⟨_, _, rfl⟩ := List.mem_map.mp ha; simp [Act.stage])
  have e4 := initCalls_nil (l := lt.map (fun p => Act.callLiveTypes p.inst)) (fun a ha => by obtain ⟨_, _, rfl⟩ := List.mem_map.mp ha; simp [Act.stage])
  have e5 := initCalls_nil (l := tail) (fun a ha => by have := htail a ha; omega)
  simp only [initCalls_append, e0, e1, e2, e3, e4, e5, initCalls_initActs, List.nil_append, List.append_nil, h.frame.mid]

/-- The start value of the vault. -/
theorem Body.vault {cfg : Config} {env : Env} {old : Option Manager} {n0 : Nat} {p : Plan} {s0 s1 sb : LoadSt} {im : List Str} {ol lf lt oi : List Plugin} {v0 : Vault}
    (h : Body cfg env old n0 p s0 s1 sb im ol lf lt oi v0) (hne : oi ≠ []) : VaultReady sb.pm.ordered s0.pm.vault v0 ∧ LiveOK (·.code.liveFuncs) sb.pm.ordered ∧
      LiveOK (·.code.liveTypes) sb.pm.ordered := by
  obtain ⟨_, h2, h3, h4⟩ := h.log.lt_done hne
  rw [h.pm] at h2
  exact ⟨h2, h3, h4⟩

theorem LiveOK.unique {live : Plugin → Ret (Option (GoMap Val))} {l : List Plugin} (h : LiveOK live l) {p q : Plugin} (hp : p ∈ l) (hq : q ∈ l) (hne : p.inst ≠ q.inst)
    {a b : GoMap Val} (ha : live p = .ret (some a)) (hb : live q = .ret (some b)) {k : Str} (h1 : a.get? k ≠ none) (h2 : b.get? k ≠ none) : False := by
  have := h.2
  induction this with
  | nil => cases hp
  | cons hx _ ih =>
    rcases List.mem_cons.mp hp with rfl | hp'
    · rcases List.mem_cons.mp hq with rfl | hq'
      · exact hne rfl
      · exact h2 (hx _ hq' a b ha hb k h1)
    · rcases List.mem_cons.mp hq with rfl | hq'
      · exact h1 (hx _ hp' b a hb ha k h2)
      · exact ih ⟨fun p hp => h.1 p (List.mem_cons_of_mem _ hp), by have := h.2; rw [List.pairwise_cons] at this; exact this.2⟩ hp' hq'

/-! ### C22 -/

/-- **C22.** Whenever the first `OnInit` of a load runs, the vault it is given holds exactly the live functions and types declared by the plugins of the manager under construction, kept
or new, and no name is declared by two of them. -/
theorem C22_vault_at_first_oninit {cfg : Config} (hcfg : cfg.OK) {m : Machine} (h : Reachable cfg m) (env : Env) (k : Kind) {i mid : Nat} {v : Vault} {rest : List Act}
    (hi : initCalls (plan cfg env k m.current m.next).acts = .callOnInit i mid v :: rest) :
    (∀ name x, v.liveFuncs.get? name = some x ↔ ∃ p ∈ (plan cfg env k m.current m.next).built.plugins, DeclaresFunc p name x) ∧
    (∀ name x, v.liveTypes.get? name = some x ↔ ∃ p ∈ (plan cfg env k m.current m.next).built.plugins, DeclaresType p name x) ∧
    (∀ p ∈ (plan cfg env k m.current m.next).built.plugins, ∀ q ∈ (plan cfg env k m.current m.next).built.plugins, p.inst ≠ q.inst → ∀ name x y,
      ¬ (DeclaresFunc p name x ∧ DeclaresFunc q name y) ∧ ¬ (DeclaresType p name x ∧ DeclaresType q name y)) := by
  have hv := view hcfg h env k
  generalize plan cfg env k m.current m.next = p at hv hi ⊢
  rcases hv.body with ⟨hst, _, _⟩ | ⟨s0, s1, sb, im, ol, lf, lt, oi, v0, hb⟩
  · rw [initCalls_nil (fun a ha => by rcases hst a ha with h | h <;> rw [h] <;> decide)] at hi
    cases hi
  · rw [hb.initCalls] at hi
    cases oi with
    | nil => cases hi
    | cons q r =>
      unfold initActs at hi
      injection hi with hi _
      injection hi with _ _ hv0
      subst hv0
      obtain ⟨h1, h2, h3⟩ := hb.vault (by simp)
      rw [hb.built]
      refine ⟨h1.funcs, h1.types, ?_⟩
      intro a ha b hb' hne name x y
      constructor
      · rintro ⟨⟨ma, e1, e2⟩, ⟨mb, e3, e4⟩⟩
        exact h2.unique ha hb' hne e1 e3 (k := name) (by rw [e2]; simp) (by rw [e4]; simp)
      · rintro ⟨⟨ma, e1, e2⟩, ⟨mb, e3, e4⟩⟩
        exact h3.unique ha hb' hne e1 e3 (k := name) (by rw [e2]; simp) (by rw [e4]; simp)

/-! ### C23 -/

/-- **C23.** If two plugins of the manager under construction declare the same live function or type, the load does not succeed. -/
theorem C23_duplicates_rejected {cfg : Config} (hcfg : cfg.OK) {m : Machine} (h : Reachable cfg m) (env : Env) {k : Kind} (hk : refused cfg k = false)
    {p q : Plugin} (hp : p ∈ (plan cfg env k m.current m.next).built.plugins) (hq : q ∈ (plan cfg env k m.current m.next).built.plugins) (hne : p.inst ≠ q.inst) {name : Str} {x y : Val}
    (hdup : (DeclaresFunc p name x ∧ DeclaresFunc q name y) ∨ (DeclaresType p name x ∧ DeclaresType q name y)) :
    ∀ d, (plan cfg env k m.current m.next).res ≠ .ok d := by
  intro d hr
  have hv := view hcfg h env k
  generalize plan cfg env k m.current m.next = pl at hv hr hp hq
  rcases hv.success hk hr with ⟨_, hb, _⟩ | ⟨⟨s0, s1, s, hs⟩, _⟩
  · rw [hb] at hp; cases hp
  · rw [hs.built] at hp hq
    rcases hdup with ⟨⟨ma, e1, e2⟩, ⟨mb, e3, e4⟩⟩ | ⟨⟨ma, e1, e2⟩, ⟨mb, e3, e4⟩⟩
    · exact hs.good.liveFuncs.unique hp hq hne e1 e3 (k := name) (by rw [e2]; simp) (by rw [e4]; simp)
    · exact hs.good.liveTypes.unique hp hq hne e1 e3 (k := name) (by rw [e2]; simp) (by rw [e4]; simp)

/-- What the two errors about duplicates say: two different plugins of the manager with these names declare it. -/
def DuplicateFault (pm : Manager) : Err → Prop
  | .dupLiveFunc name a b => ∃ p q, pm.findPlugin a = some p ∧ pm.findPlugin b = some q ∧ p.name = a ∧ q.name = b ∧ p.inst ≠ q.inst ∧
      ∃ x y, DeclaresFunc p name x ∧ DeclaresFunc q name y
  | .dupLiveType name a b => ∃ p q, pm.findPlugin a = some p ∧ pm.findPlugin b = some q ∧ p.name = a ∧ q.name = b ∧ p.inst ≠ q.inst ∧
      ∃ x y, DeclaresType p name x ∧ DeclaresType q name y
  | _ => True

theorem ordered_apart {pm : Manager} {n : Nat} (g : SoundManager n pm) {x y : Plugin} {a b c : List Plugin} (h : pm.ordered = a ++ x :: b ++ y :: c) : x.inst ≠ y.inst := by
  have hnd : (pm.ordered.map (·.inst)).Nodup := (g.ordered.map (fun p : Plugin => p.inst)).nodup_iff.mpr g.nodup
  rw [h] at hnd
  simp only [List.map_append, List.map_cons, List.append_assoc, List.cons_append] at hnd
  rw [List.nodup_append] at hnd
  obtain ⟨_, h2, _⟩ := hnd
  rw [List.nodup_cons] at h2
  intro he
  exact h2.1 (by rw [he]; simp)

/-- **C23.** The error about a duplicate live function or type is true: it names a live name and two different plugins that both declare it. -/
theorem C23_error_is_true {cfg : Config} (hcfg : cfg.OK) {m : Machine} (h : Reachable cfg m) (env : Env) (k : Kind) {e : Err}
    (hr : (plan cfg env k m.current m.next).res = .err e) : DuplicateFault (plan cfg env k m.current m.next).built e := by
  have hv := view hcfg h env k
  generalize plan cfg env k m.current m.next = p at hr hv ⊢
  cases hv.err hr with
  | list acts what => rcases what with rfl | ⟨_, rfl⟩ | ⟨_, rfl⟩ <;> trivial
  | callback what => subst what; trivial
  | early absDir entries dyn dir s0 sb f cr base why what acts built =>
    cases f with
    | inl e' =>
      simp only [errOf] at what; subst what
      cases e <;> trivial
    | inr q => simp only [errOf] at what; subst what; trivial
  | earlyStatic sps sel st hsel s0 sb f cr base why what acts built =>
    cases f with
    | inl e' =>
      simp only [errOf] at what; subst what
      cases e <;> trivial
    | inr q => simp only [errOf] at what; subst what; trivial
  | late s0 s1 sb f cr keyed why what acts built body =>
    have hk := why.frame.same.keyed keyed
    have hfail := why.fail
    rw [built]
    cases f with
    | inl e' =>
      simp only [errOf] at what; subst what
      have hfind : ∀ {n x y a b c}, SoundManager n sb.pm → sb.pm.ordered = a ++ x :: b ++ y :: c → sb.pm.findPlugin x.name = some x ∧ sb.pm.findPlugin y.name = some y ∧ x.inst ≠ y.inst := by
        intro n x y a b c g ho
        exact ⟨g.get (p := x) (by unfold Manager.plugins; rw [ho]; simp), g.get (p := y) (by unfold Manager.plugins; rw [ho]; simp), ordered_apart g ho⟩
      have hsound : sb.pm.ordered ≠ [] → ∃ n, SoundManager n sb.pm := by
        intro hne
        rcases body with body | body
        · rcases body.order with h | h
          · exact absurd h hne
          · exact ⟨_, h⟩
        · rcases body.order with h | h
          · exact absurd h hne
          · exact ⟨_, h⟩
      cases e with
      | dupLiveFunc name a b =>
        obtain ⟨x, y, l1, l2, l3, mx, my, ho, rfl, rfl, e1, e2, h1, h2⟩ := hfail
        obtain ⟨n, g⟩ := hsound (by rw [ho]; simp)
        obtain ⟨f1, f2, f3⟩ := hfind g ho
        obtain ⟨vx, hvx⟩ := Option.ne_none_iff_exists'.mp h1
        obtain ⟨vy, hvy⟩ := Option.ne_none_iff_exists'.mp h2
        exact ⟨x, y, f1, f2, rfl, rfl, f3, vx, vy, ⟨mx, e1, hvx⟩, ⟨my, e2, hvy⟩⟩
      | dupLiveType name a b =>
        obtain ⟨x, y, l1, l2, l3, mx, my, ho, rfl, rfl, e1, e2, h1, h2⟩ := hfail
        obtain ⟨n, g⟩ := hsound (by rw [ho]; simp)
        obtain ⟨f1, f2, f3⟩ := hfind g ho
        obtain ⟨vx, hvx⟩ := Option.ne_none_iff_exists'.mp h1
        obtain ⟨vy, hvy⟩ := Option.ne_none_iff_exists'.mp h2
        exact ⟨x, y, f1, f2, rfl, rfl, f3, vx, vy, ⟨mx, e1, hvx⟩, ⟨my, e2, hvy⟩⟩
      | _ => trivial
    | inr q => simp only [errOf] at what; subst what; trivial

/-! ### C24 -/

/-- The object the extension newer made, if there is a newer. -/
def NewExtension (cfg : Config) (env : Env) (v : Vault) : Prop :=
  (cfg.hasNewExt = true → env.ext = .ret v.extension) ∧ (cfg.hasNewExt = false → v.extension = none)

omit [GoRuntime] in
theorem Created.newExtension {cfg : Config} {env : Env} {n0 : Nat} {s : LoadSt} (h : Created cfg env n0 s) : NewExtension cfg env s.pm.vault := by
  have := h.ext
  constructor
  · intro he; rw [he] at this; exact this
  · intro he; rw [he] at this; exact this

/-- **C24.** The `OnInit` calls of a load: `oi` are the plugins concerned, an initial part of the new plugins in `Plugins()` order (all of them if the load succeeds). The first is
given a vault with an empty DataBag and the object made by the extension newer; each of the others is given the vault as its predecessor left it; all of them are given the vault of
the manager under construction. All but the last return nil. -/
theorem C24_oninit_vaults {cfg : Config} (hcfg : cfg.OK) {m : Machine} (h : Reachable cfg m) (env : Env) (k : Kind) :
    ∃ v0 oi, initCalls (plan cfg env k m.current m.next).acts = initActs (plan cfg env k m.current m.next).built.mid v0 oi ∧
      oi <+: (plan cfg env k m.current m.next).built.plugins.filter (isNew m.current) ∧
      (oi ≠ [] → v0.dataBag = .empty ∧ NewExtension cfg env v0) ∧ initOK v0 oi.dropLast := by
  have hv := view hcfg h env k
  have hgood := sound_old hcfg h
  generalize plan cfg env k m.current m.next = p at hv ⊢
  rcases hv.body with ⟨hst, _, _⟩ | ⟨s0, s1, sb, im, ol, lf, lt, oi, v0, hb⟩
  · refine ⟨⟨.empty, .empty, .empty, none⟩, [], ?_, List.nil_prefix, fun h => absurd rfl h, trivial⟩
    rw [initCalls_nil (fun a ha => by rcases hst a ha with h | h <;> rw [h] <;> decide)]
    rfl
  · refine ⟨v0, oi, by rw [hb.initCalls, hb.built], ?_, ?_, hb.log.oi_ok⟩
    · rw [hb.built]
      unfold Manager.plugins
      by_cases ho : sb.pm.ordered = []
      · have := hb.log.oi_pre
        rw [ho] at this ⊢
        exact this
      · rw [isNew_filter hgood hb.origin (fun q hq => (hb.order ho).perm.mem_iff.mp hq)]
        exact hb.log.oi_pre
    · intro hne
      obtain ⟨h1, _, _⟩ := hb.vault hne
      refine ⟨by rw [h1.bag, hb.cr.bag], ?_⟩
      have := hb.cr.newExtension
      unfold NewExtension at this ⊢
      rw [h1.ext]; exact this

/-- **C24**, success: when a manager is published, `OnInit` was called on all new plugins, and the manager's vault is what the last of them left. -/
theorem C24_published_vault {cfg : Config} (hcfg : cfg.OK) {m : Machine} (h : Reachable cfg m) (env : Env) {k : Kind} (hk : refused cfg k = false) {pm : Manager}
    (hp : .publish pm ∈ (plan cfg env k m.current m.next).acts) :
    ∃ v0, initCalls (plan cfg env k m.current m.next).acts = initActs pm.mid v0 (pm.plugins.filter (isNew m.current)) ∧
      (∀ name x, v0.liveFuncs.get? name = some x ↔ ∃ p ∈ pm.plugins, DeclaresFunc p name x) ∧
      (∀ name x, v0.liveTypes.get? name = some x ↔ ∃ p ∈ pm.plugins, DeclaresType p name x) ∧
      v0.dataBag = .empty ∧ NewExtension cfg env v0 ∧ initOK v0 (pm.plugins.filter (isNew m.current)) ∧
      pm.vault = vaultAfter v0 (pm.plugins.filter (isNew m.current)) := by
  have hv := view hcfg h env k
  have hgood := sound_old hcfg h
  generalize plan cfg env k m.current m.next = p at hv hp ⊢
  obtain ⟨rfl, s0, s1, s, d, hs⟩ := hv.published hk hp
  obtain ⟨v0, hl, hready, hok, hva⟩ := hs.fin.log
  have hf : (p.built.plugins).filter (isNew m.current) = freshOnes s.pm.ordered := by
    rw [hs.built]
    exact isNew_filter hgood hs.origin (fun q hq => hs.fin.ok.perm.mem_iff.mp hq)
  have hb : ∃ tail, p.acts = s.acts ++ tail ∧ ∀ a ∈ tail, 6 ≤ a.stage := by
    obtain ⟨o, hacts⟩ := hs.acts
    refine ⟨_, hacts, ?_⟩
    intro a ha
    rcases List.mem_append.mp ha with ha | ha
    · rw [mem_cbActs ha]; exact Nat.le_refl _
    · rcases List.mem_append.mp ha with ha | ha
      · split at ha
        · simp at ha
        · rw [spawn_stage a ha]; decide
      · rcases List.mem_cons.mp ha with rfl | ha
        · simp [Act.stage]
        · rw [count_stage a ha]; decide
  have hkeyed : Keyed s.pm.pluginMap := hs.good.keyed
  have body : Body cfg env m.current m.next p s0 s1 s _ _ _ _ _ v0 :=
    ⟨hs.cr, hs.pm, hs.stage1, hs.fin.frame, hl, hs.origin, hs.good.nodup, hkeyed, hs.built, hb⟩
  have hready' : VaultReady s.pm.ordered s0.pm.vault v0 := by rw [hs.pm] at hready; exact hready
  refine ⟨v0, ?_, ?_, ?_, by rw [hready'.bag, hs.cr.bag], ?_, by rw [hf]; exact hok, by rw [hf, hs.built]; exact hva⟩
  · rw [hf, body.initCalls, hs.built]
  · rw [hs.built]; exact hready'.funcs
  · rw [hs.built]; exact hready'.types
  · have := hs.cr.newExtension
    unfold NewExtension at this ⊢
    rw [hready'.ext]; exact this

/-! ### C25 -/

/-- The events so far include a call of `OnInit` of instance `i` with the vault of manager `mid`. -/
def InitialisedWith (m : Machine) (i mid : Nat) : Prop := ∃ t v, (t, Ev.act (.callOnInit i mid v)) ∈ m.trace

theorem initActs_mem {mid : Nat} {v : Vault} {l : List Plugin} {p : Plugin} (hp : p ∈ l) : ∃ w, Act.callOnInit p.inst mid w ∈ initActs mid v l := by
  induction l generalizing v with
  | nil => cases hp
  | cons q r ih =>
    unfold initActs
    rcases List.mem_cons.mp hp with rfl | hp
    · exact ⟨v, by simp⟩
    · obtain ⟨w, hw⟩ := ih (v := (q.code.onInit v).2) hp
      exact ⟨w, List.mem_cons_of_mem _ hw⟩

omit [GoRuntime] in
theorem mem_initCalls {l : List Act} {a : Act} (h : a ∈ initCalls l) : a ∈ l := List.mem_of_mem_filter h

/-- **C25**, the part that holds. Every plugin of the current manager was initialised, exactly once, with the vault of the manager whose load created it: that manager was published,
had this instance as a new plugin, and `OnInit` was called with its vault. What is missing is that this be the current manager. -/
theorem C25_initialised_by_creator_partial {cfg : Config} (hcfg : cfg.OK) {m : Machine} (h : Reachable cfg m) {pm : Manager} (hc : m.current = some pm) {p : Plugin} (hp : p ∈ pm.plugins) :
    (∃ pm0 ∈ published m.trace, ∃ p0 ∈ pm0.plugins, p0.inst = p.inst ∧ InitialisedWith m p.inst pm0.mid) ∧ (m.hooksOf p.inst).count .onInit ≤ 1 := by
  refine ⟨?_, ?_⟩
  swap
  · have := C03_lifecycle hcfg h p.inst
    exact Nat.le_trans (this.count_le .onInit) (by decide)
  suffices H : ∀ pm, m.current = some pm → ∀ p ∈ pm.plugins, ∃ pm0 ∈ published m.trace, ∃ p0 ∈ pm0.plugins, p0.inst = p.inst ∧ InitialisedWith m p.inst pm0.mid from
    H pm hc p hp
  clear hc hp
  have mono : ∀ {m m' : Machine} {ext : History}, m'.trace = m.trace ++ ext → ∀ {i : Nat}, (∃ pm0 ∈ published m.trace, ∃ p0 ∈ pm0.plugins, p0.inst = i ∧ InitialisedWith m i pm0.mid) →
      ∃ pm0 ∈ published m'.trace, ∃ p0 ∈ pm0.plugins, p0.inst = i ∧ InitialisedWith m' i pm0.mid := by
    rintro m m' ext he i ⟨pm0, h1, p0, h2, h3, t, v, h4⟩
    refine ⟨pm0, ?_, p0, h2, h3, t, v, ?_⟩
    · rw [he, published_append]; exact List.mem_append_left _ h1
    · rw [he]; exact List.mem_append_left _ h4
  refine Reachable.ind (P := fun m => ∀ pm, m.current = some pm → ∀ p ∈ pm.plugins, ∃ pm0 ∈ published m.trace, ∃ p0 ∈ pm0.plugins, p0.inst = p.inst ∧ InitialisedWith m p.inst pm0.mid) ?_ ?_ h
  · intro pm h; cases h
  · intro m m' l hr ih hs
    have hext : ∃ ext, m'.trace = m.trace ++ ext := by
      rcases hs.emits with h | ⟨ev, h, _⟩
      · exact ⟨[], by rw [h]; simp⟩
      · exact ⟨_, h⟩
    obtain ⟨ext, hext⟩ := hext
    have keep : m'.current = m.current → ∀ pm, m'.current = some pm → ∀ p ∈ pm.plugins, ∃ pm0 ∈ published m'.trace, ∃ p0 ∈ pm0.plugins, p0.inst = p.inst ∧ InitialisedWith m' p.inst pm0.mid := by
      intro hcur pm hpm p hp
      exact mono hext (ih pm (hcur ▸ hpm) p hp)
    cases hs with
    | act r a rest run phase todo plain =>
      intro pm hpm p hp
      rcases perform_publish (m := m.log (.act a)) hpm with hc | rfl
      · exact mono hext (ih pm hc p hp)
      · obtain ⟨m0, env, t, b, hl⟩ := link hr r run
        have hpub : Act.publish pm ∈ (plan cfg env r.kind m0.current m0.next).acts := by rw [← hl.acts, todo]; simp
        have hv := view hcfg hl.reach env r.kind
        obtain ⟨hpm', s0, s1, s, d, hsucc⟩ := hv.published hl.accepted hpub
        have hpm2 : pm = s.pm := by rw [hpm', hsucc.built]
        have hone : publishes (plan cfg env r.kind m0.current m0.next).acts = [pm] := by
          rcases hv.success hl.accepted hsucc.res with ⟨ha, _⟩ | ⟨_, h⟩
          · rw [ha] at hpub; cases hk : r.kind <;> rw [hk] at hpub <;> simp [countActs] at hpub
          · rw [h, hpm']
        have hnone : ∀ pm', Act.publish pm' ∉ actsOf b := by
          intro pm' hm
          have h2 := hone
          rw [← hl.acts, todo, publishes_append] at h2
          have h3 : publishes (Act.publish pm :: rest) = pm :: publishes rest := rfl
          rw [h3] at h2
          have h4 : pm' ∈ publishes (actsOf b) := mem_publishes.mpr hm
          cases hx : publishes (actsOf b) with
          | nil => rw [hx] at h4; cases h4
          | cons x xs => rw [hx] at h2; simp at h2
        have hcur : m.current = m0.current := by
          rw [current_eq hr, current_eq hl.reach, hl.trace]
          exact lastPublished_frame (by simp) hnone
        have hg := hsucc.good.get (p := p) (by rw [← hpm2]; exact hp)
        rcases hsucc.origin _ _ hg with ⟨_, om, old, ho, hop, hi, _⟩ | ⟨hu, hi⟩
        · rw [← hi]
          exact mono hext (ih om (hcur.trans ho) old ((current_good hcfg hl.reach ho).mem hop))
        · refine ⟨pm, ?_, p, hp, rfl, ?_⟩
          · change pm ∈ published (m.trace ++ [(m.now, Ev.act (.publish pm))])
            rw [published_append]
            exact List.mem_append_right _ (by simp [published])
          · obtain ⟨v0, hcalls, _⟩ := C24_published_vault hcfg hl.reach env hl.accepted hpub
            have hnew : p ∈ pm.plugins.filter (isNew m0.current) := by
              refine List.mem_filter.mpr ⟨hp, ?_⟩
              rw [isNew_iff (sound_old hcfg hl.reach) hsucc.origin hg, hu]; rfl
            obtain ⟨w, hw⟩ := initActs_mem (mid := pm.mid) (v := v0) hnew
            rw [← hcalls] at hw
            have hw' := mem_initCalls hw
            rw [← hl.acts] at hw'
            have hb : Act.callOnInit p.inst pm.mid w ∈ actsOf b := by
              rcases List.mem_append.mp hw' with h | h
              · exact h
              · exfalso
                have hph := C02_phases hcfg hl.reach env hl.accepted
                rw [← hl.acts, todo, List.pairwise_append] at hph
                obtain ⟨_, h2, _⟩ := hph
                rw [todo] at h
                rcases List.mem_cons.mp h with h | h
                · cases h
                · have := (List.pairwise_cons.mp h2).1 _ h
                  simp [Act.stage] at this
            obtain ⟨t', ht'⟩ := mem_actsOf.mp hb
            refine ⟨t', w, ?_⟩
            rw [hext, hl.trace]
            simp [ht']
    | refused k env hk => exact keep rfl
    | call k env hk run => exact keep rfl
    | release r i rest run phase todo => exact keep rfl
    | runSkip r i run phase once => exact keep rfl
    | runBegin r i run phase once => exact keep rfl
    | runEnd r i run phase => exact keep rfl
    | ret r run todo phase => exact keep rfl
    | freeDec t x y frees phase i rest todo due => exact keep rfl
    | freeSkip t x y frees i phase once => exact keep rfl
    | freeBegin t x y frees i phase once => exact keep rfl
    | freeEnd t x y frees i phase => exact keep rfl
    | tick d => exact keep rfl
    | read => exact keep rfl
    | readCounter => exact keep rfl

/-- `InitialisedWith`, as a computation. -/
def initialisedWith (m : Machine) (i mid : Nat) : Bool :=
  m.trace.any (fun e => match e.2 with | .act (.callOnInit j mid' _) => j == i && mid' == mid | _ => false)

omit [GoRuntime] in
theorem initialisedWith_iff {m : Machine} {i mid : Nat} : initialisedWith m i mid = true ↔ InitialisedWith m i mid := by
  unfold initialisedWith InitialisedWith
  rw [List.any_eq_true]
  constructor
  · rintro ⟨⟨t, e⟩, he, h⟩
    cases e with
    | act a =>
      cases a with
      | callOnInit j mid' v =>
        simp at h
        obtain ⟨rfl, rfl⟩ := h
        exact ⟨t, v, he⟩
      | _ => cases h
    | _ => cases h
  · rintro ⟨t, v, h⟩
    exact ⟨_, h, by simp⟩

end

section Examples
open Demo
attribute [local instance] Demo.rt

/-- **C25 is violated.** After loading `base` and `app` and reloading a changed `app`, the current manager has the kept plugin `base`, whose `OnInit` has never been
called with the vault of this manager; nothing `base` puts into a vault's DataBag is in the current one. -/
theorem C25_violated : ∃ (m : Machine) (pm : Manager) (p : Plugin), Reachable cfg m ∧ m.running = none ∧ m.current = some pm ∧ p ∈ pm.plugins ∧ ¬ InitialisedWith m p.inst pm.mid ∧
    pm.vault.dataBag.get? "1".toList = none := by
  have hc : m2.current.isSome = true := by decide +kernel
  obtain ⟨pm, hpm⟩ := Option.isSome_iff_exists.mp hc
  have hi : (m2.current.map (fun pm => (pm.mid, pm.plugins.map (·.inst), pm.vault.dataBag.get? "1".toList))) = some (3, [2, 4], none) := by decide +kernel
  rw [hpm] at hi
  simp only [Option.map_some, Option.some.injEq, Prod.mk.injEq] at hi
  obtain ⟨h1, h2, h3⟩ := hi
  obtain ⟨p, hp, hp2⟩ := List.mem_map.mp (show 2 ∈ pm.plugins.map (·.inst) by rw [h2]; simp)
  refine ⟨m2, pm, p, m2_reachable, ?_, hpm, hp, ?_, h3⟩
  · have : m2.running.isNone = true := by decide +kernel
    exact Option.isNone_iff_eq_none.mp this
  · rw [hp2, h1, ← initialisedWith_iff]
    have : initialisedWith m2 2 3 = false := by decide +kernel
    rw [this]; simp

/-- C22, C24: `OnInit` is called on `base` (instance 2) and then on `app` (instance 1) of manager 0; the second call sees what the first one put into the DataBag. -/
example : Reachable cfg .init ∧ cfg.OK ∧
    (initCalls (plan cfg env1 .load none 0).acts).map (fun a => match a with
      | .callOnInit i mid v => (i, mid, v.liveFuncs.keys, v.dataBag.keys)
      | _ => (0, 0, [], [])) =
    [(2, 0, ["live_2".toList, "live_1".toList], []), (1, 0, ["live_2".toList, "live_1".toList], ["1".toList])] :=
  ⟨.init, cfg_ok, by decide +kernel⟩

/-- C23: two plugins with the same live function; the load fails and names both. -/
example : error? (plan cfg (env both (fs 10 20 (code true 1 []) { code true 1 [] with exportRet := .ret none })) .load none 0).res =
    some (.dupLiveFunc "live_1".toList "base".toList "app".toList) ∧
    (plan cfg (env both (fs 10 20 (code true 1 []) { code true 1 [] with exportRet := .ret none })) .load none 0).built.plugins.map (·.inst) = [2, 1] := by decide +kernel

/-- C25, the part that holds: in the same state, `base` was initialised by manager 0 and `app` by manager 3. -/
example : initialisedWith m2 2 0 = true ∧ initialisedWith m2 4 3 = true ∧ (published m2.trace).map (·.mid) = [0, 3] := by decide +kernel

end Examples
end Hotswap
