import Verif.Proofs.LogTail

/-! The log and the references at the end of the body of a load, however it ends. -/

namespace Hotswap

variable [GoRuntime]

open LM (lift write)

/-- The end of the body. -/
structure BodyEnd (it : Iter) (lg : Logger) (St : LogSt → Prop) (s : LogSt) : Prop where
  clean : Clean it s.st
  told : lg = quiet → Told s
  st : St s

theorem Tail.bodyEnd {it : Iter} {lg : Logger} {St : LogSt → Prop} {s : LogSt} (h : Tail it lg St s) : BodyEnd it lg St s := ⟨h.clean, h.told, h.st⟩

theorem BodyLog.releasable {old : Option Manager} {n0 : Nat} {s : LoadSt} (h : BodyLog old n0 s) (hk : Keyed s.pm.pluginMap) : Releasable s.pm :=
  ⟨hk, h.nodup, h.order.imp id (fun h => h.ordered)⟩

theorem Clean.ofBody {old : Option Manager} {n0 : Nat} {s : LoadSt} (h : BodyLog old n0 s) (hk : Keyed s.pm.pluginMap) (it : Iter) : Clean it s := by
  obtain ⟨rel, h1, h2, h3, _⟩ := h.cleanup it
  exact ⟨⟨rel, h1, h2, h3, h.releasable hk⟩, h.stage⟩

/-- No hook has been called or announced. -/
theorem told_of_none {s : LogSt} (hl : ∀ x ∈ s.lines, x.2.isHook = false) (ha : ∀ a ∈ s.st.acts, a.stage ≤ 2) : Told s := by
  intro nm _
  rw [announced_none (fun a h => ?_), List.filter_eq_nil_iff]
  · intro x hx; simp [hl x hx]
  · have := ha a h
    cases a <;> simp [Act.stage] at this <;> rfl

theorem finish_end {old : Option Manager} {n0 : Nat} {pm0 : Manager} (it : Iter) (lg : Logger) (data : Nat) {St : LogSt → Prop} (hcl : HookClosed St) {s : LogSt}
    (hgood : ∀ om, old = some om → SoundManager n0 om) (hb : Base old n0 pm0 s.st) (ho : s.st.pm.ordered = [])
    (hf : s.st.pm.vault.liveFuncs = .empty) (ht : s.st.pm.vault.liveTypes = .empty)
    (hl : ∀ x ∈ s.lines, x.2.isHook = false) (hst : St s) : BodyEnd it lg St (finishLoadL lg it data s).2 := by
  have w1 := initDeps_wp it hb.keyed hb.finishHyps
  have w2 := finishLoad_wp0 it data hb.keyed hb.finishHyps ho hf ht
  unfold finishLoad at w2
  rw [wp_bind] at w2
  have w := wp_and w1 w2
  change BodyEnd it lg St (LM.bind (LM.lift (initDeps it)) (fun _ => invokeEveryOnLoadL lg data >>= fun _ => LM.lift (setupVault it) >>= fun _ => invokeEveryOnInitL lg) s).2
  have early : ∀ f t, ImpFail s.st (importKeys s.st.pm.pluginMap it) f t ∧ FinishFailed0 s.st it data f t → BodyEnd it lg St ⟨t, s.lines⟩ := by
    rintro f t ⟨⟨_, _, im, _, hacts⟩, hff⟩
    obtain ⟨im', ol, lf, lt, oi, v0, hlog⟩ := hff.log
    refine ⟨Clean.ofBody (BodyLog.ofFinish hgood hb hff.frame hlog) (hff.frame.same.keyed hb.keyed) it, fun _ => told_of_none hl (fun a ha => ?_), ?_⟩
    · change a ∈ t.acts at ha
      rw [hacts] at ha
      rcases List.mem_append.mp ha with ha | ha
      · rw [hb.stage a ha]; decide
      · obtain ⟨i, _, rfl⟩ := List.mem_map.mp ha; simp [Act.stage]
    · refine hcl s _ [] _ (by simp) (by simp) hacts (fun a ha => ?_) hst
      obtain ⟨i, _, rfl⟩ := List.mem_map.mp ha
      simp [Act.stage]
  unfold LM.bind LM.lift
  unfold wp at w
  rcases hx : initDeps it s.st with ⟨e, t⟩
  rw [hx] at w
  cases e with
  | err e => exact early _ _ w
  | panic p => exact early _ _ w
  | ok u =>
    obtain ⟨h1, _⟩ := w
    have hmid : t.pm.mid = s.st.pm.mid := by rw [h1.pm]
    have hframe : FinishFrame s.st t := ⟨h1.next, hmid, h1.same, .inr ⟨h1.perm, h1.topo, h1.fresh, h1.rebuilt⟩⟩
    have hlog : FinishLog s.st it data t (importKeys s.st.pm.pluginMap it) [] [] [] [] s.st.pm.vault := by
      refine ⟨List.prefix_refl _, List.nil_prefix, List.nil_prefix, List.nil_prefix, List.nil_prefix, ?_, by simp, fun _ => rfl, ?_, ?_, fun h => absurd rfl h, trivial⟩
      · simp [h1.acts, initActs]
      · rintro (h | h | h) <;> exact absurd rfl h
      · rintro (h | h) <;> exact absurd rfl h
    have htail : Tail it lg St ⟨t, s.lines⟩ := by
      refine ⟨Clean.ofBody (BodyLog.ofFinish hgood hb hframe hlog) (hframe.same.keyed hb.keyed) it, fun p hp => h1.perm.mem_iff.mp hp, fun _ => told_of_none hl (fun a ha => ?_), ?_⟩
      · change a ∈ t.acts at ha
        rw [h1.acts] at ha
        rcases List.mem_append.mp ha with ha | ha
        · rw [hb.stage a ha]; decide
        · obtain ⟨i, _, rfl⟩ := List.mem_map.mp ha; simp [Act.stage]
      · refine hcl s _ [] _ (by simp) (by simp) h1.acts (fun a ha => ?_) hst
        obtain ⟨i, _, rfl⟩ := List.mem_map.mp ha
        simp [Act.stage]
    exact (tail_rest hcl data htail).bodyEnd

/-- The first line of a load that is not static has been written, and it is true. -/
def StatsLogged (old : Option Manager) (fs : FS) (files : List Str) (s : LogSt) : Prop :=
  ∃ k a b c rest, s.lines = (k, .stats a b c) :: rest ∧ (∀ x ∈ rest, x.2.isHook = true) ∧ StatsTrue old fs files a b c ∧
    k ≤ s.st.acts.length ∧ (∀ x ∈ s.st.acts.take k, x.isInc = true) ∧ ∀ x ∈ s.st.acts.drop k, x.isInc = false

theorem StatsLogged.step {old : Option Manager} {fs : FS} {files : List Str} {s s' : LogSt} {ll : List (Nat × Line)} {la : List Act} (hl : s'.lines = s.lines ++ ll) (hll : ∀ x ∈ ll, x.2.isHook = true)
    (ha : s'.st.acts = s.st.acts ++ la) (hla : ∀ a ∈ la, a.isInc = false) (h : StatsLogged old fs files s) : StatsLogged old fs files s' := by
  obtain ⟨k, a, b, c, rest, h1, h2, h3, h4, h5, h6⟩ := h
  refine ⟨k, a, b, c, rest ++ ll, by rw [hl, h1]; rfl, ?_, h3, ?_, ?_, ?_⟩
  · intro x hx
    rcases List.mem_append.mp hx with hx | hx
    · exact h2 x hx
    · exact hll x hx
  · rw [ha, List.length_append]; omega
  · rw [ha, List.take_append_of_le_length h4]; exact h5
  · rw [ha, List.drop_append_of_le_length h4]
    intro x hx
    rcases List.mem_append.mp hx with hx | hx
    · exact h6 x hx
    · exact hla x hx

theorem StatsLogged.closed (old : Option Manager) (fs : FS) (files : List Str) : HookClosed (StatsLogged old fs files) := by
  intro s s' ll la hl hll ha hla h
  refine h.step hl hll ha (fun a h' => ?_)
  have := (hla a h').1
  cases a <;> simp [Act.stage] at this <;> rfl

/-- Nothing has been done, or the first line has been written. -/
def StatsOrNothing (old : Option Manager) (fs : FS) (files : List Str) (s : LogSt) : Prop :=
  (s.lines = [] ∧ s.st.acts = [] ∧ s.st.pm.pluginMap = .empty ∧ s.st.pm.ordered = []) ∨ StatsLogged old fs files s

theorem body_end {old : Option Manager} {n0 : Nat} (it : Iter) (lg : Logger) (fs : FS) (files : List Str) (data : Nat) {s : LogSt}
    (hgood : ∀ om, old = some om → SoundManager n0 om) (h0 : Fresh n0 s.st) (hl : s.lines = []) :
    BodyEnd it lg (StatsOrNothing old fs files) (loadPluginsBodyL lg it fs files old data s).2 ∧
    ∀ u, (loadPluginsBodyL lg it fs files old data s).1 = .ok u → StatsLogged old fs files (loadPluginsBodyL lg it fs files old data s).2 := by
  have hb0 : Base old n0 s.st.pm s.st := by
    refine ⟨?_, ?_, ?_, h0.lo, ?_, rfl, ?_, ?_, ?_, ?_, ?_⟩ <;> simp [h0.map, h0.acts, Keyed, Manager.insts, GoMap.vals, GoMap.empty, acquired, HooksIncr, GoMap.get?]
  have weaker : ∀ {t : LogSt}, BodyEnd it lg (StatsLogged old fs files) t → BodyEnd it lg (StatsOrNothing old fs files) t := fun h => ⟨h.clean, h.told, .inr h.st⟩
  have hkeep := keepStage_wp it fs files hgood h0.lo h0.map h0.acts
  unfold wp at hkeep
  have nothing : ∀ t, t = s.st → BodyEnd it lg (StatsOrNothing old fs files) ⟨t, s.lines⟩ := by
    rintro t rfl
    exact ⟨Clean.ofBody (BodyLog.ofBase hb0 h0.ordered) hb0.keyed it, fun _ => told_of_none (by simp [hl]) (by simp [h0.acts]), .inl ⟨hl, h0.acts, h0.map, h0.ordered⟩⟩
  change BodyEnd it lg _ (LM.bind (LM.lift (keepStage it fs files old)) (fun m => LM.bind (outputStats1L lg it m) (fun _ => LM.bind (LM.lift (loadNew it fs m)) (fun _ => finishLoadL lg it data))) s).2 ∧
    ∀ u, (LM.bind (LM.lift (keepStage it fs files old)) (fun m => LM.bind (outputStats1L lg it m) (fun _ => LM.bind (LM.lift (loadNew it fs m)) (fun _ => finishLoadL lg it data))) s).1 = .ok u → StatsLogged old fs files (LM.bind (LM.lift (keepStage it fs files old)) (fun m => LM.bind (outputStats1L lg it m) (fun _ => LM.bind (LM.lift (loadNew it fs m)) (fun _ => finishLoadL lg it data))) s).2
  generalize hrest : (fun m => LM.bind (outputStats1L lg it m) (fun _ => LM.bind (LM.lift (loadNew it fs m)) (fun _ => finishLoadL lg it data))) = rest
  unfold LM.bind LM.lift
  rcases hx : keepStage it fs files old s.st with ⟨e, t⟩
  rw [hx] at hkeep
  cases e with
  | err e => exact ⟨nothing t hkeep, fun u hu => by cases hu⟩
  | panic p => exact ⟨nothing t hkeep, fun u hu => by cases hu⟩
  | ok m =>
    subst hrest
    have hk : KeepDone old n0 s.st.pm fs files m t := hkeep
    suffices main : BodyEnd it lg (StatsLogged old fs files) (LM.bind (outputStats1L lg it m) (fun _ => LM.bind (LM.lift (loadNew it fs m)) (fun _ => finishLoadL lg it data)) ⟨t, s.lines⟩).2 from
      ⟨weaker main, fun _ _ => main.st⟩
    obtain ⟨hall, hstats⟩ := hk.statsTrue it
    have hpm := hk.base.pm
    have hto : t.pm.ordered = [] := by rw [hpm]; exact h0.ordered
    have hlog : StatsLogged old fs files ⟨t, s.lines ++ [(t.acts.length, .stats ((((t.pm.pluginMap.rangeKV it .stats).map Prod.snd).filter (fun p => p.note == .notReloadable)).map (·.name))
      ((((t.pm.pluginMap.rangeKV it .stats).map Prod.snd).filter (fun p => p.note == .unchanged)).map (·.name)) (infoNames it m))]⟩ := by
      refine ⟨t.acts.length, _, _, _, [], by rw [hl]; rfl, by simp, hstats, Nat.le_refl _, ?_, ?_⟩
      · simp only [List.take_length]; exact hk.incs
      · simp only [List.drop_length]; simp
    have hsx : outputStats1L lg it m ⟨t, s.lines⟩ = ((if lg s.lines.length then .panic .user else .ok ()), ⟨t, s.lines ++ [(t.acts.length, .stats ((((t.pm.pluginMap.rangeKV it .stats).map Prod.snd).filter (fun p => p.note == .notReloadable)).map (·.name))
      ((((t.pm.pluginMap.rangeKV it .stats).map Prod.snd).filter (fun p => p.note == .unchanged)).map (·.name)) (infoNames it m))]⟩) := by
      change (if (((t.pm.pluginMap.rangeKV it .stats).map Prod.snd).all (fun p => p.note == .notReloadable || p.note == .unchanged)) = true then _ else _ : LM Unit) ⟨t, s.lines⟩ = _
      rw [if_pos hall]
      rfl
    generalize hsl : s.lines ++ [(t.acts.length, Line.stats _ _ _)] = sl at hlog hsx
    have hslh : ∀ x ∈ sl, x.2.isHook = false := by rw [← hsl, hl]; intro x hx; simp at hx; subst hx; rfl
    have hst1 : ∀ a ∈ t.acts, a.stage = 1 := hk.base.stage
    cases hlg : lg s.lines.length with
    | true =>
      unfold LM.bind
      rw [hsx, hlg]
      exact ⟨Clean.ofBody (BodyLog.ofBase hk.base h0.ordered) hk.base.keyed it, fun _ => told_of_none hslh (fun a ha => by rw [hst1 a ha]; decide), hlog⟩
    | false =>
      generalize hfin : (fun _ => LM.bind (LM.lift (loadNew it fs m)) (fun _ => finishLoadL lg it data) : Unit → LM Unit) = fin
      unfold LM.bind
      rw [hsx, hlg]
      subst hfin
      change BodyEnd it lg _ (LM.bind (LM.lift (loadNew it fs m)) (fun _ => finishLoadL lg it data) ⟨t, sl⟩).2
      have hnew := loadNew_wp (fs := fs) (infoMap := m) (s1 := t) it hgood (by
          intro k info hk'
          obtain ⟨f, _, rfl, h1, h2, h3, h4⟩ := hk.onlyInfo k info hk'
          refine ⟨⟨?_, rfl, ?_, h4⟩, ?_⟩
          · rw [h1, h2]
          · rw [h2]; exact h3
          · rw [h1]; rfl) (by
          intro k hk'
          obtain ⟨info, hk'⟩ := GoMap.mem_keys.mp hk'
          obtain ⟨f, hf, rfl, _⟩ := hk.onlyInfo k info hk'
          obtain ⟨d, _, hc⟩ := hk.fate f hf
          cases hc with
          | notReloadable q hq rel kept out => rw [out] at hk'; cases hk'
          | unchanged q hq rel sha kept out => rw [out] at hk'; cases hk'
          | toLoad info' isInfo data had' kept out => exact kept) hk.base
      obtain ⟨ln, hln1, hln2⟩ := NoInc.loadNew it fs m t
      unfold wp at hnew
      unfold LM.bind LM.lift
      have hlog2 : ∀ t', t'.acts = t.acts ++ ln → StatsLogged old fs files ⟨t', sl⟩ := fun t' h => hlog.step (s' := ⟨t', sl⟩) (ll := []) (by simp) (by simp) h hln2
      rcases hn : loadNew it fs m t with ⟨e, t'⟩
      simp only [hn] at hnew hln1 ⊢
      have early : Base old n0 s.st.pm t' → BodyEnd it lg (StatsLogged old fs files) ⟨t', sl⟩ := fun hb =>
        ⟨Clean.ofBody (BodyLog.ofBase hb h0.ordered) hb.keyed it, fun _ => told_of_none hslh (fun a ha => by rw [hb.stage a ha]; decide), hlog2 t' hln1⟩
      cases e with
      | err e => exact early hnew.1
      | panic p => exact early hnew.1
      | ok u =>
        have hb := hnew.1.base
        have hpm' := hb.pm
        refine finish_end it lg data (StatsLogged.closed old fs files) (s := ⟨t', sl⟩) hgood hb ?_ ?_ ?_ hslh (hlog2 t' hln1)
        · change t'.pm.ordered = []; rw [hpm']; exact h0.ordered
        · change t'.pm.vault.liveFuncs = .empty; rw [hpm']; exact h0.funcs
        · change t'.pm.vault.liveTypes = .empty; rw [hpm']; exact h0.types

/-- Only hooks have been announced, and no callback has been called. -/
def HooksOnly (s : LogSt) : Prop := ∀ x ∈ s.lines, x.2.isHook = true

theorem HooksOnly.closed : HookClosed HooksOnly := by
  intro s s' ll la hl hll _ _ h x hx
  rw [hl] at hx
  rcases List.mem_append.mp hx with hx | hx
  · exact h x hx
  · exact hll x hx

theorem staticNew_end {n0 : Nat} (it : Iter) (lg : Logger) (sps : GoMap StaticPlugin) (data : Nat) {s : LogSt}
    (hok : StaticOK sps) (h0 : Fresh n0 s.st) (hl : s.lines = []) :
    BodyEnd it lg HooksOnly (((LM.lift (do
    let s ← M.get
    if s.pm.pluginMap.size ≠ 0 then M.throw .twice
    loadStaticNew it sps)) >>= fun _ => finishLoadL lg it data) s).2 := by
  have hb0 : Base none n0 s.st.pm s.st := by
    refine ⟨?_, ?_, ?_, h0.lo, ?_, rfl, ?_, ?_, ?_, ?_, ?_⟩ <;> simp [h0.map, h0.acts, Keyed, Manager.insts, GoMap.vals, GoMap.empty, acquired, HooksIncr, GoMap.get?]
  have hgood : ∀ om, (none : Option Manager) = some om → SoundManager n0 om := by intro om h; cases h
  have w := loadStaticNew_wp it hok hb0 h0.map h0.acts
  have hx : (do
    let s ← M.get
    if s.pm.pluginMap.size ≠ 0 then M.throw .twice
    loadStaticNew it sps : M Unit) s.st = loadStaticNew it sps s.st := by
    change (if s.st.pm.pluginMap.size ≠ 0 then _ else _ : M Unit) s.st = _
    rw [if_neg (by rw [h0.map]; simp [GoMap.size, GoMap.empty])]
  change BodyEnd it lg HooksOnly (LM.bind (LM.lift _) (fun _ => finishLoadL lg it data) s).2
  unfold LM.bind LM.lift
  rw [hx]
  unfold wp at w
  rcases hn : loadStaticNew it sps s.st with ⟨e, t⟩
  rw [hn] at w
  have hll : ∀ x ∈ s.lines, x.2.isHook = false := by rw [hl]; simp
  have early : Base none n0 s.st.pm t → BodyEnd it lg HooksOnly ⟨t, s.lines⟩ := fun hb =>
    ⟨Clean.ofBody (BodyLog.ofBase hb h0.ordered) hb.keyed it, fun _ => told_of_none hll (fun a ha => by rw [hb.stage a ha]; decide), by intro x hx; rw [hl] at hx; cases hx⟩
  cases e with
  | err e => exact early w.1
  | panic p => exact early w.1
  | ok u =>
    have hb := StaticInv.base w
    have hpm' := hb.pm
    refine finish_end it lg data HooksOnly.closed (s := ⟨t, s.lines⟩) hgood hb ?_ ?_ ?_ hll (by intro x hx; rw [hl] at hx; cases hx)
    · change t.pm.ordered = []; rw [hpm']; exact h0.ordered
    · change t.pm.vault.liveFuncs = .empty; rw [hpm']; exact h0.funcs
    · change t.pm.vault.liveTypes = .empty; rw [hpm']; exact h0.types

end Hotswap
