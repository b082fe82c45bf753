import Verif.Proofs.Calls
import Verif.Spec.Calls

/-! What the plan-level theorems need from `View`. -/

namespace Hotswap

section
variable {α : Type}

/-- An element that occurs only in the middle part of a list. -/
theorem split_mid {A B C pre post : List α} {a : α} (h : A ++ (B ++ C) = pre ++ a :: post) (hA : a ∉ A) (hC : a ∉ C) :
    ∃ b1 b2, B = b1 ++ a :: b2 ∧ pre = A ++ b1 ∧ post = b2 ++ C := by
  rcases List.append_eq_append_iff.mp h with ⟨x, h1, h2⟩ | ⟨x, h1, h2⟩
  · -- pre = A ++ x, B ++ C = x ++ a :: post
    rcases List.append_eq_append_iff.mp h2 with ⟨y, h3, h4⟩ | ⟨y, h3, h4⟩
    · exact absurd (by rw [h4]; simp) hC
    · cases y with
      | nil =>
        simp at h4
        exact absurd (by rw [← h4]; simp) hC
      | cons b y =>
        simp at h4
        obtain ⟨rfl, rfl⟩ := h4
        exact ⟨x, y, h3, h1, rfl⟩
  · -- A = pre ++ x, a :: post = x ++ (B ++ C)
    cases x with
    | nil =>
      simp at h2 h1
      cases B with
      | nil =>
        simp at h2
        exact absurd (by rw [← h2]; simp) hC
      | cons b B =>
        simp at h2
        obtain ⟨rfl, rfl⟩ := h2
        exact ⟨[], B, rfl, by simp [h1], rfl⟩
    | cons b x =>
      simp at h2
      exact absurd (by rw [h1, h2.1]; simp) hA

theorem map_split {β : Type} {f : α → β} {l : List α} {b1 b2 : List β} {b : β} (h : l.map f = b1 ++ b :: b2) :
    ∃ l1 x l2, l = l1 ++ x :: l2 ∧ b1 = l1.map f ∧ b = f x ∧ b2 = l2.map f := by
  obtain ⟨l1, l2, rfl, h1, h2⟩ := List.map_eq_append_iff.mp h
  obtain ⟨x, l3, rfl, h3, h4⟩ := List.map_eq_cons_iff.mp h2
  exact ⟨l1, x, l3, rfl, h1.symm, h3.symm, h4.symm⟩

theorem filter_split {p : α → Bool} {l l1 l2 : List α} {x : α} (h : l.filter p = l1 ++ x :: l2) :
    ∃ a b, l = a ++ x :: b ∧ a.filter p = l1 ∧ b.filter p = l2 ∧ p x = true := by
  obtain ⟨a, b, rfl, h1, h2⟩ := List.filter_eq_append_iff.mp h
  obtain ⟨c, d, rfl, h3, h4, h5⟩ := List.filter_eq_cons_iff.mp h2
  refine ⟨a ++ c, d, by simp, ?_, h5, h4⟩
  rw [List.filter_append, h1, List.filter_eq_nil_iff.mpr (fun y hy => by simpa using h3 y hy), List.append_nil]

end

variable [GoRuntime]

/-- The call got as far as the dependency phase: `s1` is the state before it, `sb` the state at the end of the load, before
callbacks, publication or cleanup. -/
structure Body (cfg : Config) (env : Env) (old : Option Manager) (n0 : Nat) (p : Plan) (s0 s1 sb : LoadSt) (im : List Str) (ol lf lt oi : List Plugin) (v0 : Vault) : Prop where
  cr : Created cfg env n0 s0
  pm : s1.pm = { s0.pm with pluginMap := s1.pm.pluginMap }
  stage1 : ∀ a ∈ s1.acts, a.stage = 1
  frame : FinishFrame s1 sb
  log : FinishLog s1 env.it env.data sb im ol lf lt oi v0
  origin : Origin old n0 sb.pm
  nodup : sb.pm.insts.Nodup
  keyed : Keyed sb.pm.pluginMap
  built : p.built = sb.pm
  acts : ∃ tail, p.acts = sb.acts ++ tail ∧ ∀ a ∈ tail, 6 ≤ a.stage

theorem cleanup_stage {it : Iter} {pm : Manager} : ∀ a ∈ cleanupActs it pm, a.stage = 7 := by
  intro a ha
  obtain ⟨p, _, rfl⟩ := List.mem_map.mp ha
  rfl

theorem count_stage {k : Kind} : ∀ a ∈ countActs k, a.stage = 7 := by
  cases k <;> simp [countActs, Act.stage]

theorem spawn_stage {old : Option Manager} : ∀ a ∈ spawnActs old, a.stage = 7 := by
  cases old <;> simp [spawnActs, Act.stage]

/-- Every call either stays within the first phase, or has a body. -/
theorem View.body {cfg : Config} {env : Env} {k : Kind} {old : Option Manager} {n0 : Nat} {p : Plan} (h : View cfg env k old n0 p) :
    ((∀ a ∈ p.acts, a.stage = 1 ∨ a.stage = 7) ∧ p.built.ordered = [] ∧ publishes p.acts = []) ∨ ∃ s0 s1 sb im ol lf lt oi v0, Body cfg env old n0 p s0 s1 sb im ol lf lt oi v0 := by
  have hnil : p.acts = [] → ∀ a ∈ p.acts, a.stage = 1 ∨ a.stage = 7 := by intro h; simp [h]
  have hrel : ∀ l it pm, p.acts = l ++ cleanupActs it pm → (∀ a ∈ l, a.stage = 1) → (∀ a ∈ p.acts, a.stage = 1 ∨ a.stage = 7) ∧ publishes p.acts = [] := by
    intro l it pm hp hl
    refine ⟨?_, ?_⟩
    · intro a ha
      rw [hp] at ha
      rcases List.mem_append.mp ha with ha | ha
      · exact .inl (hl a ha)
      · exact .inr (cleanup_stage a ha)
    · unfold publishes
      rw [List.filterMap_eq_nil_iff]
      intro a ha
      rw [hp] at ha
      rcases List.mem_append.mp ha with ha | ha
      · have := hl a ha
        cases a <;> simp [Act.stage] at this <;> rfl
      · obtain ⟨q, _, rfl⟩ := List.mem_map.mp ha; rfl
  cases h with
  | listErr e dyn why acts res next built => exact .inl ⟨hnil acts, by rw [built]; rfl, by rw [acts]; rfl⟩
  | empty absDir entries dyn dir wl none acts res next built =>
    refine .inl ⟨?_, by rw [built]; rfl, ?_⟩
    · intro a ha; rw [acts] at ha; exact .inr (count_stage a ha)
    · rw [acts]; cases k <;> rfl
  | escaped ext panics acts res next built => exact .inl ⟨hnil acts, by rw [built]; rfl, by rw [acts]; rfl⟩
  | staticMissing sps e st kl sel acts res next built => exact .inl ⟨hnil acts, built.1, by rw [acts]; rfl⟩
  | dynErr absDir entries dyn dir wl some s0 sb f cr failed body acts res next built =>
    cases failed with
    | early base why =>
      obtain ⟨h1, h2⟩ := hrel _ _ _ acts base.stage
      exact .inl ⟨h1, by rw [built, base.pm]; exact cr.ordered, h2⟩
    | late s1 done why =>
      obtain ⟨im, ol, lf, lt, oi, v0, hl⟩ := why.log
      exact .inr ⟨s0, s1, sb, im, ol, lf, lt, oi, v0, cr, done.base.pm, done.base.stage, why.frame, hl, body.origin, body.nodup,
        why.frame.same.keyed done.base.keyed, built, _, acts, fun a ha => by rw [cleanup_stage a ha]; decide⟩
  | staticErr sps sel st kl hsel s0 sb f cr failed body acts res next built =>
    cases failed with
    | early base why =>
      obtain ⟨h1, h2⟩ := hrel _ _ _ acts base.stage
      exact .inl ⟨h1, by rw [built, base.pm]; exact cr.ordered, h2⟩
    | late s1 done why =>
      obtain ⟨im, ol, lf, lt, oi, v0, hl⟩ := why.log
      exact .inr ⟨s0, s1, sb, im, ol, lf, lt, oi, v0, cr, done.base.pm, done.base.stage, why.frame, hl, body.origin.weaken, body.nodup,
        why.frame.same.keyed done.base.keyed, built, _, acts, fun a ha => by rw [cleanup_stage a ha]; decide⟩
  | dynCb absDir entries dyn dir wl some s0 s1 s cr done cbs n o rest split bad good acts res next built =>
    obtain ⟨v0, hl, _⟩ := done.fin.log
    refine .inr ⟨s0, s1, s, _, _, _, _, _, v0, cr, done.stage1.base.pm, done.stage1.base.stage, done.fin.frame, hl, done.body.origin, done.body.nodup,
        done.fin.frame.same.keyed done.stage1.base.keyed, built, _, by rw [acts, List.append_assoc], ?_⟩
    intro a ha
    rcases List.mem_append.mp ha with ha | ha
    · rw [mem_cbActs ha]; exact Nat.le_refl _
    · rw [cleanup_stage a ha]; decide
  | dynOk absDir entries dyn dir wl some s0 s1 s d cr done good details acts res next built =>
    obtain ⟨v0, hl, _⟩ := done.fin.log
    refine .inr ⟨s0, s1, s, _, _, _, _, _, v0, cr, done.stage1.base.pm, done.stage1.base.stage, done.fin.frame, hl, done.body.origin, done.body.nodup,
        done.fin.frame.same.keyed done.stage1.base.keyed, built, _, by rw [acts, List.append_assoc], ?_⟩
    intro a ha
    rcases List.mem_append.mp ha with ha | ha
    · rw [mem_cbActs ha]; exact Nat.le_refl _
    · rcases List.mem_append.mp ha with ha | ha
      · rw [spawn_stage a ha]; decide
      · rcases List.mem_cons.mp ha with rfl | ha
        · simp [Act.stage]
        · rw [count_stage a ha]; decide
  | staticCb sps sel st kl hsel s0 s1 s cr done cbs n o rest split bad good acts res next built =>
    obtain ⟨v0, hl, _⟩ := done.fin.log
    refine .inr ⟨s0, s1, s, _, _, _, _, _, v0, cr, done.stage1.base.pm, done.stage1.base.stage, done.fin.frame, hl, done.body.origin.weaken, done.body.nodup,
        done.fin.frame.same.keyed done.stage1.base.keyed, built, _, by rw [acts, List.append_assoc], ?_⟩
    intro a ha
    rcases List.mem_append.mp ha with ha | ha
    · rw [mem_cbActs ha]; exact Nat.le_refl _
    · rw [cleanup_stage a ha]; decide
  | staticOk sps sel st kl hsel s0 s1 s d cr done good details acts res next built =>
    obtain ⟨v0, hl, _⟩ := done.fin.log
    refine .inr ⟨s0, s1, s, _, _, _, _, _, v0, cr, done.stage1.base.pm, done.stage1.base.stage, done.fin.frame, hl, done.body.origin.weaken, done.body.nodup,
        done.fin.frame.same.keyed done.stage1.base.keyed, built, _, by rw [acts, List.append_assoc], ?_⟩
    intro a ha
    rcases List.mem_append.mp ha with ha | ha
    · rw [mem_cbActs ha]; exact Nat.le_refl _
    · rcases List.mem_cons.mp ha with rfl | ha
      · simp [Act.stage]
      · simp at ha

/-- A call that publishes had a complete, successful load. -/
structure Success (cfg : Config) (env : Env) (k : Kind) (old : Option Manager) (n0 : Nat) (p : Plan) (s0 s1 s : LoadSt) (d : Details) : Prop where
  cr : Created cfg env n0 s0
  pm : s1.pm = { s0.pm with pluginMap := s1.pm.pluginMap }
  stage1 : ∀ a ∈ s1.acts, a.stage = 1
  asked : Asked s1
  fin : Finished s1 env.it env.data s
  good : GoodManager s.next s.pm
  origin : Origin old n0 s.pm
  built : p.built = s.pm
  next : p.next = s.next
  lo : n0 < s.next
  res : p.res = .ok d
  cbs : ∀ c ∈ callbacks cfg env k, c.2 = .ok
  acts : ∃ o, p.acts = s.acts ++ (cbActs s.pm.mid o (callbacks cfg env k) ++ ((if cfg.static.isSome then [] else spawnActs old) ++ (.publish s.pm :: countActs k)))

theorem publishes_append (a b : List Act) : publishes (a ++ b) = publishes a ++ publishes b := List.filterMap_append ..

theorem publishes_nil {l : List Act} (h : ∀ a ∈ l, ∀ pm, a ≠ .publish pm) : publishes l = [] := by
  unfold publishes
  rw [List.filterMap_eq_nil_iff]
  intro a ha
  cases a with
  | publish pm => exact absurd rfl (h _ ha pm)
  | _ => rfl

/-- The successful calls. -/
theorem View.success {cfg : Config} {env : Env} {k : Kind} {old : Option Manager} {n0 : Nat} {p : Plan} (h : View cfg env k old n0 p) (hk : refused cfg k = false) {d : Details}
    (hr : p.res = .ok d) :
    (p.acts = countActs k ∧ p.built = noManager ∧ d = .empty ∧ ∃ absDir entries, env.dir = some (absDir, entries) ∧ listedFiles cfg absDir entries = []) ∨
    ((∃ s0 s1 s, Success cfg env k old n0 p s0 s1 s d) ∧ publishes p.acts = [p.built]) := by
  have hdyn : cfg.static = none ∨ k ≠ .load → cfg.static.isSome = false := by
    rintro (h | h)
    · rw [h]; rfl
    · cases k with
      | load => exact absurd rfl h
      | reload e => exact hk
  have hpub : ∀ (s : LoadSt) (c t : List Act) (pm : Manager), (∀ a ∈ s.acts, a.stage ≤ 5) → (∀ a ∈ c, a.stage = 6 ∨ ∃ om, a = .spawnFree om) → (∀ a ∈ t, a = .count) →
      publishes (s.acts ++ (c ++ (.publish pm :: t))) = [pm] := by
    intro s c t pm hs hc ht
    rw [publishes_append, publishes_append, publishes_nil, publishes_nil]
    · have : publishes t = [] := publishes_nil (fun a ha pm => by rw [ht a ha]; simp)
      unfold publishes at *
      simp [this]
    · intro a ha pm he
      rcases hc a ha with h | ⟨om, h⟩
      · rw [he] at h; simp [Act.stage] at h
      · rw [he] at h; cases h
    · intro a ha pm he
      have := hs a ha
      rw [he] at this; simp [Act.stage] at this
  have hcount : ∀ a ∈ countActs k, a = .count := by cases k <;> simp [countActs]
  cases h with
  | listErr e dyn why acts res next built => rw [hr] at res; cases res
  | empty absDir entries dyn dir wl none acts res next built => rw [hr] at res; cases res; exact .inl ⟨acts, built, rfl, absDir, entries, dir, none⟩
  | escaped ext panics acts res next built => rw [hr] at res; cases res
  | staticMissing sps e st kl sel acts res next built => rw [hr] at res; cases res
  | dynErr absDir entries dyn dir wl some s0 sb f cr failed body acts res next built => rw [hr] at res; cases res
  | staticErr sps sel st kl hsel s0 sb f cr failed body acts res next built => rw [hr] at res; cases res
  | dynCb absDir entries dyn dir wl some s0 s1 s cr done cbs n o rest split bad good acts res next built => rw [hr] at res; cases res
  | staticCb sps sel st kl hsel s0 s1 s cr done cbs n o rest split bad good acts res next built => rw [hr] at res; cases res
  | dynOk absDir entries dyn dir wl some s0 s1 s d' cr done good details acts res next built =>
    rw [hr] at res; cases res
    refine .inr ⟨⟨s0, s1, s, cr, done.stage1.base.pm, done.stage1.base.stage, done.stage1.asked, done.fin, done.good, done.body.origin, built, next, done.body.lo, hr, good, old.map (·.mid), ?_⟩, ?_⟩
    · rw [hdyn dyn, acts]; simp
    · rw [acts, built]
      have : s.acts ++ cbActs s.pm.mid (old.map (·.mid)) (callbacks cfg env k) ++ (spawnActs old ++ (Act.publish s.pm :: countActs k)) =
        s.acts ++ ((cbActs s.pm.mid (old.map (·.mid)) (callbacks cfg env k) ++ spawnActs old) ++ (Act.publish s.pm :: countActs k)) := by simp
      rw [this]
      refine hpub s _ _ s.pm done.body.stage ?_ hcount
      intro a ha
      rcases List.mem_append.mp ha with ha | ha
      · exact .inl (mem_cbActs ha)
      · cases old with
        | none => simp [spawnActs] at ha
        | some om => simp [spawnActs] at ha; exact .inr ⟨om, ha⟩
  | staticOk sps sel st kl hsel s0 s1 s d' cr done good details acts res next built =>
    rw [hr] at res; cases res
    subst kl
    refine .inr ⟨⟨s0, s1, s, cr, done.stage1.base.pm, done.stage1.base.stage, done.stage1.asked, done.fin, done.good, done.body.origin.weaken, built, next, done.body.lo, hr, good, none, ?_⟩, ?_⟩
    · rw [st, acts]; simp [countActs]
    · rw [acts, built, List.append_assoc]
      exact hpub s _ _ s.pm done.body.stage (fun a ha => .inl (mem_cbActs ha)) (by simp)

/-- The plan of a call made in a reachable state. -/
theorem view {cfg : Config} (hcfg : cfg.OK) {m : Machine} (h : Reachable cfg m) (env : Env) (k : Kind) :
    View cfg env k m.current m.next (plan cfg env k m.current m.next) :=
  plan_view hcfg (fun om ho => ((inv hcfg h).cur om ho).1)

theorem mem_publishes {l : List Act} {pm : Manager} : pm ∈ publishes l ↔ Act.publish pm ∈ l := by
  unfold publishes
  rw [List.mem_filterMap]
  constructor
  · rintro ⟨a, ha, h⟩
    cases a <;> simp at h
    subst h; exact ha
  · intro h; exact ⟨_, h, rfl⟩

/-- Publication happens only in successful calls. -/
theorem View.published {cfg : Config} {env : Env} {k : Kind} {old : Option Manager} {n0 : Nat} {p : Plan} (h : View cfg env k old n0 p) (hk : refused cfg k = false) {pm : Manager}
    (hp : Act.publish pm ∈ p.acts) : pm = p.built ∧ ∃ s0 s1 s d, Success cfg env k old n0 p s0 s1 s d := by
  by_cases hr : ∃ d, p.res = .ok d
  · obtain ⟨d, hr⟩ := hr
    rcases h.success hk hr with ⟨ha, _⟩ | ⟨⟨s0, s1, s, hs⟩, hpub⟩
    · rw [ha] at hp; cases k <;> simp [countActs] at hp
    · have := mem_publishes.mpr hp
      rw [hpub] at this
      exact ⟨by simpa using this, s0, s1, s, d, hs⟩
  · have := (h.shape hk).of_failed (fun d hd => hr ⟨d, hd⟩)
    exact absurd hp (this.1 pm)

/-- The ways a call can return an error. -/
inductive ErrView (cfg : Config) (env : Env) (k : Kind) (old : Option Manager) (n0 : Nat) (p : Plan) (e : Err) : Prop
  | list (acts : p.acts = []) (what : e = .directory ∨ (∃ l, e = .notFound l) ∨ ∃ n, e = .staticNotFound n)
  | callback (what : e = .callback)
  | early (absDir : Str) (entries : List DirEntry) (dyn : cfg.static = none ∨ k ≠ .load) (dir : env.dir = some (absDir, entries)) (s0 sb : LoadSt) (f : Fail)
      (cr : Created cfg env n0 s0) (base : Base old n0 s0.pm sb) (why : Stage1Fail old env.fs (listedFiles cfg absDir entries) sb f) (what : e = errOf f)
      (acts : p.acts = sb.acts ++ cleanupActs env.it sb.pm) (built : p.built = sb.pm)
  | earlyStatic (sps sel : GoMap StaticPlugin) (st : cfg.static = some sps) (hsel : staticSelection cfg sps = .ok sel) (s0 sb : LoadSt) (f : Fail)
      (cr : Created cfg env n0 s0) (base : Base none n0 s0.pm sb) (why : StaticNewFail sel sb f) (what : e = errOf f)
      (acts : p.acts = sb.acts ++ cleanupActs env.it sb.pm) (built : p.built = sb.pm)
  | late (s0 s1 sb : LoadSt) (f : Fail) (cr : Created cfg env n0 s0) (keyed : Keyed s1.pm.pluginMap) (why : FinishFailed s1 env.it env.data f sb) (what : e = errOf f)
      (acts : p.acts = sb.acts ++ cleanupActs env.it sb.pm) (built : p.built = sb.pm) (body : BodyLog old n0 sb ∨ BodyLog none n0 sb)

theorem whitelistError_eq {wl names : List Str} {e : Err} (h : whitelistError wl names = some e) : ∃ l, e = .notFound l := by
  unfold whitelistError at h
  split at h
  · cases h
  · simp only at h
    split at h
    · cases h; exact ⟨_, rfl⟩
    · cases h

theorem selectStatic_err {sps : GoMap StaticPlugin} {l : List Str} {acc : GoMap StaticPlugin} {e : Err} (h : selectStatic sps l acc = .error e) :
    ∃ n, e = .staticNotFound n ∧ n ∈ l ∧ sps.get? n = none := by
  induction l generalizing acc with
  | nil => cases h
  | cons a r ih =>
    unfold selectStatic at h
    cases ha : sps.get? a with
    | none => rw [ha] at h; cases h; exact ⟨a, rfl, by simp, ha⟩
    | some q =>
      rw [ha] at h
      obtain ⟨n, h1, h2, h3⟩ := ih h
      exact ⟨n, h1, by simp [h2], h3⟩

theorem View.err {cfg : Config} {env : Env} {k : Kind} {old : Option Manager} {n0 : Nat} {p : Plan} (h : View cfg env k old n0 p) {e : Err}
    (hr : p.res = .err e) : ErrView cfg env k old n0 p e := by
  cases h with
  | listErr e' dyn why acts res =>
    rw [hr] at res; cases res
    refine .list acts ?_
    rcases why with ⟨_, h⟩ | ⟨_, _, _, h⟩
    · exact .inl h
    · exact .inr (.inl (whitelistError_eq h))
  | empty absDir entries dyn dir wl none acts res => rw [hr] at res; cases res
  | escaped ext panics acts res => rw [hr] at res; cases res
  | staticMissing sps e' st kl sel acts res =>
    rw [hr] at res; cases res
    refine .list acts (.inr (.inr ?_))
    unfold staticSelection at sel
    split at sel
    · cases sel
    · obtain ⟨n, h1, _⟩ := selectStatic_err sel
      exact ⟨n, h1⟩
  | dynCb absDir entries dyn dir wl some s0 s1 s cr done cbs n o rest split bad good acts res => rw [hr] at res; cases res; exact .callback rfl
  | staticCb sps sel st kl hsel s0 s1 s cr done cbs n o rest split bad good acts res => rw [hr] at res; cases res; exact .callback rfl
  | dynOk absDir entries dyn dir wl some s0 s1 s d cr done good details acts res => rw [hr] at res; cases res
  | staticOk sps sel st kl hsel s0 s1 s d cr done good details acts res => rw [hr] at res; cases res
  | dynErr absDir entries dyn dir wl some s0 sb f cr failed body acts res next built =>
    rw [hr] at res
    injection res with he
    cases failed with
    | early base why => exact .early absDir entries dyn dir s0 sb f cr base why he acts built
    | late s1 done why => exact .late s0 s1 sb f cr done.base.keyed why he acts built (.inl body)
  | staticErr sps sel st kl hsel s0 sb f cr failed body acts res next built =>
    rw [hr] at res
    injection res with he
    cases failed with
    | early base why => exact .earlyStatic sps sel st hsel s0 sb f cr base why he acts built
    | late s1 done why => exact .late s0 s1 sb f cr done.base.keyed why he acts built (.inr body)

/-- New instances are those not below the allocator. -/
theorem isNew_iff {old : Option Manager} {n0 : Nat} {pm : Manager} (hgood : ∀ om, old = some om → SoundManager n0 om) (ho : Origin old n0 pm)
    {k : Str} {p : Plugin} (hp : pm.pluginMap.get? k = some p) : isNew old p = !p.unchanged := by
  rcases ho k p hp with ⟨hu, om, oldP, rfl, hop, hi, _⟩ | ⟨hu, hi⟩
  · rw [hu]
    unfold isNew
    have : p.inst ∈ om.insts := by
      rw [← hi]
      exact List.mem_map.mpr ⟨oldP, GoMap.mem_vals.mpr ⟨k, hop⟩, rfl⟩
    simp [this]
  · rw [hu]
    unfold isNew
    cases old with
    | none => rfl
    | some om =>
      have : p.inst ∉ om.insts := by
        intro hm
        have := (hgood om rfl).fresh _ hm
        omega
      simp [this]

theorem isNew_filter {old : Option Manager} {n0 : Nat} {pm : Manager} (hgood : ∀ om, old = some om → SoundManager n0 om) (ho : Origin old n0 pm)
    {l : List Plugin} (hl : ∀ p ∈ l, p ∈ pm.pluginMap.vals) : l.filter (isNew old) = freshOnes l := by
  unfold freshOnes
  refine List.filter_congr ?_
  intro p hp
  obtain ⟨k, hk⟩ := GoMap.mem_vals.mp (hl p hp)
  exact isNew_iff hgood ho hk

end Hotswap
