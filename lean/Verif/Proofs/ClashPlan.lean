import Verif.Proofs.Clash

/-! A whole static load, whatever the names of the plugins are. -/

namespace Hotswap

variable [GoRuntime]

theorem FinishLog.insts {s1 s : LoadSt} {it : Iter} {data : Nat} {im : List Str} {ol lf lt oi : List Plugin} {v0 : Vault} (hf : FinishFrame s1 s)
    (hl : FinishLog s1 it data s im ol lf lt oi v0) : ∃ ext, s.acts = s1.acts ++ ext ∧ ∀ a ∈ ext, (∃ i ∈ s.pm.insts, a.inst? = some i) ∧ ∀ j, a ≠ .release j ∧ a ≠ .register j := by
  refine ⟨_, hl.acts, ?_⟩
  have hord : ∀ p ∈ s.pm.ordered, p.inst ∈ s.pm.insts := by
    intro p hp
    rcases hf.order with h | h
    · rw [h] at hp; cases hp
    · exact List.mem_map.mpr ⟨p, h.perm.mem_iff.mp hp, rfl⟩
  have hfresh : ∀ p ∈ freshOnes s.pm.ordered, p.inst ∈ s.pm.insts := fun p hp => hord p (mem_freshOnes.mp hp).1
  have hinit : ∀ (l : List Plugin) (v : Vault), (∀ p ∈ l, p.inst ∈ s.pm.insts) → ∀ a ∈ initActs s1.pm.mid v l, (∃ i ∈ s.pm.insts, a.inst? = some i) ∧ ∀ j, a ≠ .release j ∧ a ≠ .register j := by
    intro l
    induction l with
    | nil => intro v _ a ha; cases ha
    | cons p r ih =>
      intro v h a ha
      unfold initActs at ha
      rcases List.mem_cons.mp ha with rfl | ha
      · exact ⟨⟨p.inst, h p (by simp), rfl⟩, by simp⟩
      · exact ih _ (fun q hq => h q (by simp [hq])) a ha
  intro a ha
  rcases List.mem_append.mp ha with ha | ha
  · obtain ⟨i, hi, rfl⟩ := List.mem_map.mp ha
    obtain ⟨k, _, hk⟩ := List.mem_filterMap.mp hi
    refine ⟨⟨i, ?_, rfl⟩, by simp⟩
    unfold importInst at hk
    cases hg : s1.pm.pluginMap.get? k with
    | none => rw [hg] at hk; cases hk
    | some p =>
      rw [hg] at hk
      simp only at hk
      split at hk
      · cases hk
      · cases hk
        have hi : s.pm.insts = s1.pm.insts := hf.same.insts
        rw [hi]
        exact List.mem_map.mpr ⟨p, GoMap.mem_vals.mpr ⟨k, hg⟩, rfl⟩
  rcases List.mem_append.mp ha with ha | ha
  · obtain ⟨p, hp, rfl⟩ := List.mem_map.mp ha
    exact ⟨⟨p.inst, hfresh p (hl.ol_pre.subset hp), rfl⟩, by simp⟩
  rcases List.mem_append.mp ha with ha | ha
  · obtain ⟨p, hp, rfl⟩ := List.mem_map.mp ha
    exact ⟨⟨p.inst, hord p (hl.lf_pre.subset hp), rfl⟩, by simp⟩
  rcases List.mem_append.mp ha with ha | ha
  · obtain ⟨p, hp, rfl⟩ := List.mem_map.mp ha
    exact ⟨⟨p.inst, hord p (hl.lt_pre.subset hp), rfl⟩, by simp⟩
  · exact hinit oi v0 (fun p hp => hfresh p (hl.oi_pre.subset hp)) a ha

/-- A failed static load, before the cleanup. -/
inductive ClashFail (n0 : Nat) (it : Iter) (sel : GoMap StaticPlugin) (data : Nat) (s0 : LoadSt) (f : Fail) (s : LoadSt) : Prop
  | early (why : ClashFailed n0 s0.pm sel s0.next f s)
  | late (s1 : LoadSt) (done : ClashDone n0 s0.pm sel s0.next s1) (why : FinishFailed s1 it data f s)

theorem good_of_clash {n0 : Nat} {pm0 : Manager} {s1 s : LoadSt} {it : Iter} {data : Nat} {acts' : List Act}
    (hb : Base none n0 pm0 { s1 with acts := acts' }) (h : Finished s1 it data s) : GoodManager s.next s.pm :=
  { sound_of_ordered (by intro om h; cases h) hb ⟨h.frame.next, h.frame.mid, h.frame.same, h.frame.order⟩ h.ok with liveFuncs := h.liveFuncs, liveTypes := h.liveTypes }

theorem loadStatic_clash {n0 : Nat} {s0 : LoadSt} (it : Iter) (sel : GoMap StaticPlugin) (data : Nat) (h0 : Fresh n0 s0) :
    wp (loadStatic it sel data)
      (fun _ s => ∃ s1, ClashDone n0 s0.pm sel s0.next s1 ∧ Finished s1 it data s ∧ GoodManager s.next s.pm)
      (fun f s => ∃ f0 sb, ClashFail n0 it sel data s0 f0 sb ∧ f = .inl (errOf f0) ∧ s = { sb with acts := sb.acts ++ cleanupActs it sb.pm }) s0 := by
  unfold loadStatic
  refine wp_withCleanup (F := fun f s => ClashFail n0 it sel data s0 f s) ?_ ?_
  · unfold loadStaticBody
    simp only [wp_bind, wp_get]
    have hsz : s0.pm.pluginMap.size = 0 := by rw [h0.map]; rfl
    rw [if_neg (by omega)]
    have hb0 : Base none n0 s0.pm s0 := by
      refine ⟨?_, ?_, ?_, h0.lo, ?_, rfl, ?_, ?_, ?_, ?_, ?_⟩ <;> simp [h0.map, h0.acts, Keyed, Manager.insts, GoMap.vals, GoMap.empty, acquired, HooksIncr, GoMap.get?]
    simp only [wp_bind]
    refine wp_mono (loadStaticNew_clash it hb0 h0.map h0.acts) ?_ ?_
    · intro _ s1 h1
      obtain ⟨acts', hi⟩ := h1.inv
      have hpm : s1.pm = { s0.pm with pluginMap := s1.pm.pluginMap } := hi.base.pm
      have ho : s1.pm.ordered = [] := by rw [hpm]; exact h0.ordered
      refine wp_mono (finishLoad_wp it data (s0 := s1) hi.base.keyed hi.base.finishHyps ho (by rw [hpm]; exact h0.funcs) (by rw [hpm]; exact h0.types)) ?_ ?_
      · intro _ s h
        exact ⟨s1, h1, h, good_of_clash hi.base h⟩
      · intro f s h
        exact .late s1 h1 h
    · intro f s h
      exact .early h
  · intro f s h
    exact ⟨f, s, h, rfl, rfl⟩

/-- All ways a static `LoadPlugins` can go. -/
inductive ClashView (cfg : Config) (env : Env) (sps : GoMap StaticPlugin) (n0 : Nat) (p : Plan) : Prop
  | escaped (ext : cfg.hasNewExt = true) (panics : env.ext = .panics) (acts : p.acts = []) (res : p.res = .panic .user) (built : p.built.pluginMap = .empty) (next : p.next = n0 + 1)
  | missing (e : Err) (sel : staticSelection cfg sps = .error e) (acts : p.acts = []) (res : p.res = .err e) (built : p.built.pluginMap = .empty) (next : p.next = n0 + 1)
  | failed (sel : GoMap StaticPlugin) (hsel : staticSelection cfg sps = .ok sel) (s0 sb : LoadSt) (f : Fail) (cr : Created cfg env n0 s0)
      (fail : ClashFail n0 env.it sel env.data s0 f sb) (acts : p.acts = sb.acts ++ cleanupActs env.it sb.pm) (res : p.res = .err (errOf f)) (built : p.built = sb.pm) (next : p.next = sb.next)
  | cb (sel : GoMap StaticPlugin) (hsel : staticSelection cfg sps = .ok sel) (s0 s1 s : LoadSt) (cr : Created cfg env n0 s0)
      (done : ClashDone n0 s0.pm sel s0.next s1) (fin : Finished s1 env.it env.data s) (good : GoodManager s.next s.pm) (cbs : List (Nat × Outcome)) (n : Nat) (o : Outcome) (rest : List (Nat × Outcome))
      (split : callbacks cfg env .load = cbs ++ (n, o) :: rest) (bad : o ≠ .ok)
      (acts : p.acts = s.acts ++ cbActs s.pm.mid none (cbs ++ [(n, o)]) ++ cleanupActs env.it s.pm) (res : p.res = .err .callback) (built : p.built = s.pm) (next : p.next = s.next)
  | ok (sel : GoMap StaticPlugin) (hsel : staticSelection cfg sps = .ok sel) (s0 s1 s : LoadSt) (d : Details) (cr : Created cfg env n0 s0)
      (done : ClashDone n0 s0.pm sel s0.next s1) (fin : Finished s1 env.it env.data s) (good : GoodManager s.next s.pm) (cbs : ∀ c ∈ callbacks cfg env .load, c.2 = .ok)
      (details : d.entries = sel.entries.map (fun e => (e.1, "ok".toList)))
      (acts : p.acts = s.acts ++ cbActs s.pm.mid none (callbacks cfg env .load) ++ [.publish s.pm]) (res : p.res = .ok d) (built : p.built = s.pm) (next : p.next = s.next)

theorem clash_view {cfg : Config} {sps : GoMap StaticPlugin} (hst : cfg.static = some sps) (env : Env) (old : Option Manager) (n0 : Nat) :
    ClashView cfg env sps n0 (plan cfg env .load old n0) := by
  unfold plan apiLoad
  simp only [hst]
  refine plan_of_wp (R := fun d s' => ClashView cfg env sps n0 ⟨s'.acts, .ok d, s'.next, s'.pm⟩)
    (F := fun f s' => ClashView cfg env sps n0 ⟨s'.acts, match f with | .inl e => .err e | .inr p => .panic p, s'.next, s'.pm⟩) ?_ (fun d s h => h) (fun e s h => h) (fun p s h => h)
  unfold loadStaticPlugins
  simp only [wp_bind]
  refine wp_mono createManager_wp ?_ ?_
  · intro _ s0 hcr
    change wp (match staticSelection cfg sps with
      | .error e => M.throw e
      | .ok sel => _) _ _ s0
    cases hsel : staticSelection cfg sps with
    | error e =>
      simp only [wp_throw]
      exact .missing e hsel hcr.acts rfl hcr.map hcr.next
    | ok sel =>
      simp only [wp_bind]
      refine wp_mono (loadStatic_clash env.it sel env.data hcr.toFresh) ?_ ?_
      · rintro _ s ⟨s1, hdone, hfin, hgood⟩
        refine wp_mono (callbacks_wp env.it none (callbacks cfg env .load)) ?_ ?_
        · rintro _ s' ⟨rfl, hgd⟩
          unfold publishNew
          simp only [wp_bind, wp_mpure, wp_get, wp_emit]
          exact .ok sel hsel s0 s1 s _ hcr hdone hfin hgood hgd rfl rfl rfl rfl rfl
        · rintro f s' ⟨rfl, cbs, n, o, rest, hsplit, hbad, hgd, rfl⟩
          exact .cb sel hsel s0 s1 s hcr hdone hfin hgood cbs n o rest hsplit hbad rfl rfl rfl rfl
      · rintro f s' ⟨f0, sb, hfail, rfl, rfl⟩
        exact .failed sel hsel s0 sb f0 hcr hfail rfl rfl rfl rfl
  · rintro f s' ⟨rfl, h1, h2, rfl⟩
    exact .escaped h1 h2 rfl rfl rfl rfl

end Hotswap
