import Verif.Proofs.BodyLog

/-! `loadPlugins`, `loadStatic`, callbacks and details. -/

namespace Hotswap

variable [GoRuntime]

open M

/-- The error reported for a failure of the body: a panic is turned into an error. -/
def errOf : Fail → Err
  | .inl e => e
  | .inr p => .panicked none p

omit [GoRuntime] in
/-- The cleanup of a failed load. -/
theorem wp_withCleanup {it : Iter} {x : M Unit} {R : Unit → LoadSt → Prop} {F F' : Fail → LoadSt → Prop} {s : LoadSt}
    (h : wp x R F s)
    (hF : ∀ f s', F f s' → F' (.inl (errOf f)) { s' with acts := s'.acts ++ (freeOrder it s'.pm).map (fun p => .release p.inst) }) :
    wp (withCleanup it x) R F' s := by
  unfold wp withCleanup invokeEveryOnFree at *
  cases hx : x s with
  | mk e s' =>
    rw [hx] at h
    cases e with
    | ok a => exact h
    | err e => exact hF _ _ h
    | panic p => exact hF _ _ h

/-- Success of `loadPlugins`: `s1` is the state after the first stage. -/
structure LoadDone (old : Option Manager) (n0 : Nat) (it : Iter) (fs : FS) (files : List Str) (data : Nat) (s0 s1 s : LoadSt) : Prop where
  stage1 : Stage1Done old n0 s0.pm fs files s1
  fin : Finished s1 it data s
  body : BodyLog old n0 s
  good : GoodManager s.next s.pm

/-- Failure of `loadPlugins`, before the cleanup. -/
inductive LoadFailed (old : Option Manager) (n0 : Nat) (it : Iter) (fs : FS) (files : List Str) (data : Nat) (s0 : LoadSt) (f : Fail) (s : LoadSt) : Prop
  | early (base : Base old n0 s0.pm s) (why : Stage1Fail old fs files s f)
  | late (s1 : LoadSt) (done : Stage1Done old n0 s0.pm fs files s1) (why : FinishFailed s1 it data f s)

/-- The state in which a load starts. -/
structure Fresh (n0 : Nat) (s : LoadSt) : Prop where
  lo : n0 < s.next
  map : s.pm.pluginMap = .empty
  ordered : s.pm.ordered = []
  acts : s.acts = []
  funcs : s.pm.vault.liveFuncs = .empty
  types : s.pm.vault.liveTypes = .empty
  bag : s.pm.vault.dataBag = .empty

theorem good_of_finished {old : Option Manager} {n0 : Nat} {pm0 : Manager} {s1 s : LoadSt} {it : Iter} {data : Nat}
    (hgood : ∀ om, old = some om → SoundManager n0 om)
    (hb : Base old n0 pm0 s1) (h : Finished s1 it data s) : GoodManager s.next s.pm :=
  { sound_of_ordered hgood hb h.frame h.ok with liveFuncs := h.liveFuncs, liveTypes := h.liveTypes }

theorem Base.finishHyps {old : Option Manager} {n0 : Nat} {pm0 : Manager} {s : LoadSt} (h : Base old n0 pm0 s) :
    ∀ k p, s.pm.pluginMap.get? k = some p → p.unchanged = false → p.deps = [] ∧ p.bound = [] := by
  intro k p hp hu
  rcases h.origin k p hp with ⟨om, oldP, note, _, _, rfl⟩ | hf
  · simp at hu
  · exact ⟨hf.deps, hf.bound⟩

theorem loadPluginsBody_wp {old : Option Manager} {n0 : Nat} {s0 : LoadSt} (it : Iter) (fs : FS) (files : List Str) (data : Nat)
    (hgood : ∀ om, old = some om → SoundManager n0 om) (h0 : Fresh n0 s0) :
    wp (loadPluginsBody it fs files old data)
      (fun _ s => ∃ s1, LoadDone old n0 it fs files data s0 s1 s)
      (fun f s => LoadFailed old n0 it fs files data s0 f s ∧ BodyLog old n0 s) s0 := by
  refine wp_body (wp_mono (stage1_wp it fs files hgood h0.lo h0.map h0.acts) ?_ ?_)
  · intro _ s1 h1
    have hpm := h1.base.pm
    have ho : s1.pm.ordered = [] := by rw [hpm]; exact h0.ordered
    refine wp_mono (finishLoad_wp it data h1.base.keyed h1.base.finishHyps ho (by rw [hpm]; exact h0.funcs) (by rw [hpm]; exact h0.types)) ?_ ?_
    · intro _ s h
      obtain ⟨v0, hl, _⟩ := h.log
      exact ⟨s1, h1, h, BodyLog.ofFinish hgood h1.base h.frame hl, good_of_finished hgood h1.base h⟩
    · intro f s h
      obtain ⟨im, ol, lf, lt, oi, v0, hl⟩ := h.log
      exact ⟨.late s1 h1 h, BodyLog.ofFinish hgood h1.base h.frame hl⟩
  · rintro f s ⟨hb, hf⟩
    exact ⟨.early hb hf, BodyLog.ofBase hb h0.ordered⟩

theorem loadPlugins_wp {old : Option Manager} {n0 : Nat} {s0 : LoadSt} (it : Iter) (fs : FS) (files : List Str) (data : Nat)
    (hgood : ∀ om, old = some om → SoundManager n0 om) (h0 : Fresh n0 s0) :
    wp (loadPlugins it fs files old data)
      (fun _ s => ∃ s1, LoadDone old n0 it fs files data s0 s1 s)
      (fun f s => ∃ f0 sb, LoadFailed old n0 it fs files data s0 f0 sb ∧ BodyLog old n0 sb ∧ f = .inl (errOf f0) ∧
        s = { sb with acts := sb.acts ++ (freeOrder it sb.pm).map (fun p => .release p.inst) }) s0 := by
  unfold loadPlugins
  refine wp_withCleanup (loadPluginsBody_wp it fs files data hgood h0) ?_
  rintro f s ⟨h1, h2⟩
  exact ⟨f, s, h1, h2, rfl, rfl⟩

/-! ### static -/

/-- The names of the statically linked plugins are distinct up to case. -/
def StaticOK (sps : GoMap StaticPlugin) : Prop := (sps.vals.map (fun sp => name2key sp.name)).Nodup

/-- The plugin was built from the static plugin. -/
structure BuiltFromStatic (sp : StaticPlugin) (p : Plugin) : Prop where
  changed : p.unchanged = false
  note : p.note = .ok
  name : p.name = sp.name
  code : p.code = sp.code
  syms : p.syms = none
  file : p.file = []
  sha : p.sha = 0
  complete : staticMissing sp = []
  faithful : Faithful p

/-- State of the loading loop after the map keys `done`. -/
structure StaticInv (n0 : Nat) (pm0 : Manager) (sps : GoMap StaticPlugin) (done : List Str) (s : LoadSt) : Prop where
  base : Base none n0 pm0 s
  new : ∀ n ∈ done, ∃ sp p, sps.get? n = some sp ∧ s.pm.pluginMap.get? (name2key sp.name) = some p ∧ BuiltFromStatic sp p
  only : ∀ k p, s.pm.pluginMap.get? k = some p → ∃ n ∈ done, ∃ sp, sps.get? n = some sp ∧ name2key sp.name = k
  asked : Asked s

/-- The error `e` is a true statement about the static plugin. -/
def StaticFault (sp : StaticPlugin) : Err → Prop
  | .missing l => l = staticMissing sp ∧ l ≠ []
  | .hookPanic n => n = sp.name ∧ staticMissing sp = [] ∧ (sp.code.reloadable = .panics ∨ sp.code.exportRet = .panics)
  | _ => False

/-- Facts about failures of the loading loop. -/
def StaticNewFail (sps : GoMap StaticPlugin) (_s : LoadSt) : Fail → Prop
  | .inl (.loading n e) => ∃ sp, sps.get? n = some sp ∧ StaticFault sp e
  | _ => False

omit [GoRuntime] in
theorem static_key_inj {sps : GoMap StaticPlugin} {g : StaticPlugin → Str} (h : (sps.vals.map g).Nodup) {n n' : Str} {sp sp' : StaticPlugin}
    (h1 : sps.get? n = some sp) (h2 : sps.get? n' = some sp') (he : g sp = g sp') : n = n' := by
  have e1 := GoMap.get?_eq_some.mp h1
  have e2 := GoMap.get?_eq_some.mp h2
  have hn : (sps.entries.map (fun e => g e.2)).Nodup := by
    have : sps.vals.map g = sps.entries.map (fun e => g e.2) := by
      simp [GoMap.vals, List.map_map, Function.comp_def]
    rwa [this] at h
  exact congrArg Prod.fst (List.inj_on_of_nodup_map hn e1 e2 he)

theorem loadStaticPlugin_wp {n0 : Nat} {pm0 : Manager} {sps : GoMap StaticPlugin} {s : LoadSt} {done : List Str} {n : Str} {sp : StaticPlugin}
    (hsp : sps.get? n = some sp) (hfresh : ∀ n' ∈ done, ∀ sp', sps.get? n' = some sp' → name2key sp'.name ≠ name2key sp.name)
    (h : StaticInv n0 pm0 sps done s) :
    wp (loadStaticPlugin sp) (fun _ s' => StaticInv n0 pm0 sps (done ++ [n]) s')
      (fun f s' => Base none n0 pm0 s' ∧ match f with
        | .inl e => StaticFault sp e
        | .inr _ => False) s := by
  unfold loadStaticPlugin
  have hb := h.base
  simp only [wp_bind, wp_alloc]
  have hb1 := hb.alloc
  cases hl : staticMissing sp with
  | cons m ms => simp only [wp_throw]; exact ⟨hb1, hl.symm, by simp⟩
  | nil =>
    simp only [wp_bind, wp_emit]
    have hrng : n0 ≤ s.next ∧ s.next < s.next + 1 := ⟨Nat.le_of_lt hb.lo, Nat.lt_succ_self _⟩
    have hnone : ∀ b ∈ s.acts, ∀ g, hookOf b = some (s.next, g) → False := by
      intro b hbm g hg
      have := (hb.range b hbm _ _ hg).2; omega
    have hb3 := hb1.hook (a := .callReloadable s.next) (i := s.next) (g := .reloadable) rfl rfl rfl hrng
      (fun b hbm g hg => (hnone b hbm g hg).elim)
    cases hr : sp.code.reloadable with
    | panics => simp only [invokeRet, wp_throw]; exact ⟨hb3, rfl, hl, .inl hr⟩
    | ret rel =>
      simp only [invokeRet, wp_mpure, wp_bind, wp_emit]
      have hb4 := hb3.hook (a := .callExport s.next) (i := s.next) (g := .export) rfl rfl rfl hrng (by
        intro b hbm g hg
        rcases List.mem_append.mp hbm with hbm | hbm
        · exact (hnone b hbm g hg).elim
        · simp at hbm; subst hbm; simp [hookOf] at hg; subst hg; decide)
      cases he : sp.code.exportRet with
      | panics => simp only [wp_throw]; exact ⟨hb4, rfl, hl, .inr he⟩
      | ret exp =>
        simp only [wp_mpure, setPlugin, wp_modPm, wp_emit]
        have hcur : s.pm.pluginMap.get? (name2key sp.name) = none := by
          cases hc : s.pm.pluginMap.get? (name2key sp.name) with
          | none => rfl
          | some q =>
            obtain ⟨n', hn', sp', hsp', hk⟩ := h.only _ _ hc
            exact absurd hk (hfresh n' hn' sp' hsp')
        refine ⟨?_, ?_, ?_, ?_⟩
        · refine hb4.enter (k := name2key sp.name) (a := .register s.next) rfl hcur ?_ (.inr ⟨rfl, Nat.le_of_lt hb.lo, Nat.lt_succ_self _, rfl, rfl, hr, he⟩) rfl rfl rfl ?_ ?_
          · intro hin
            rcases hb.mem_insts hin with ⟨om, k, p, hom, _⟩ | ⟨_, hlt⟩
            · cases hom
            · simp at hlt
          · intro i hi; cases hi
          · intro i hi; cases hi; exact hrng
        · intro k hk
          rcases List.mem_append.mp hk with hkd | hk
          · obtain ⟨sp', p, h1, h2, h3⟩ := h.new k hkd
            refine ⟨sp', p, h1, ?_, h3⟩
            rw [GoMap.get?_insert, if_neg]
            · exact h2
            · exact hfresh k hkd sp' h1
          · simp at hk; subst hk
            exact ⟨sp, _, hsp, by rw [GoMap.get?_insert, if_pos rfl], ⟨rfl, rfl, rfl, rfl, rfl, rfl, rfl, hl, hr, he⟩⟩
        · intro k p hp
          simp only [GoMap.get?_insert] at hp
          split at hp
          · rename_i e; exact ⟨n, by simp, sp, hsp, e.symm⟩
          · obtain ⟨n', hn', r⟩ := h.only k p hp
            exact ⟨n', List.mem_append_left _ hn', r⟩
        · have hother : ∀ k p, s.pm.pluginMap.get? k = some p → k ≠ name2key sp.name := by
            rintro k p hp rfl
            rw [hcur] at hp; cases hp
          constructor
          · intro a ha i g hg
            simp only [List.append_assoc, List.mem_append, List.mem_singleton] at ha
            have mine : ∀ i', i' = s.next → ∃ k p, (s.pm.pluginMap.insert (name2key sp.name)
                { inst := s.next, name := sp.name, file := [], sha := 0, note := .ok, unchanged := false, syms := none, code := sp.code, deps := [],
                  exported := exp, reloadable := rel, bound := [] }).get? k = some p ∧ p.unchanged = false ∧ p.inst = i' := by
              rintro i' rfl
              exact ⟨_, _, by rw [GoMap.get?_insert, if_pos rfl], rfl, rfl⟩
            rcases ha with ha | rfl | rfl | rfl
            · obtain ⟨k, p, hp, hu, hi⟩ := h.asked.only a ha i g hg
              refine ⟨k, p, ?_, hu, hi⟩
              rw [GoMap.get?_insert, if_neg (hother k p hp)]; exact hp
            · cases hg; exact mine _ rfl
            · cases hg; exact mine _ rfl
            · cases hg
          · intro k p hp hu
            simp only [GoMap.get?_insert] at hp
            split at hp
            · cases hp; simp
            · have := h.asked.all k p hp hu
              exact ⟨by simp [this.1], by simp [this.2]⟩

theorem loadStaticNew_wp {n0 : Nat} {s0 : LoadSt} {sps : GoMap StaticPlugin} (it : Iter) (hok : StaticOK sps)
    (h : Base none n0 s0.pm s0) (hempty : s0.pm.pluginMap = .empty) (hacts : s0.acts = []) :
    wp (loadStaticNew it sps)
      (fun _ s => StaticInv n0 s0.pm sps sps.keys s)
      (fun f s => Base none n0 s0.pm s ∧ StaticNewFail sps s f) s0 := by
  unfold loadStaticNew
  have hnd : (sortStrings (sps.range it .static)).Nodup := (sortStrings_perm _).symm.nodup (GoMap.range_nodup ..)
  have hall : ∀ k, k ∈ sortStrings (sps.range it .static) ↔ k ∈ sps.keys := by
    intro k; rw [mem_sortStrings, GoMap.mem_range]
  refine wp_forEach _ _ (StaticInv n0 s0.pm sps) _ ⟨h, by simp, ?_, ?_⟩ ?_ ?_
  · intro k p hp; rw [hempty] at hp; cases hp
  · constructor
    · intro a ha; rw [hacts] at ha; cases ha
    · intro k p hp; rw [hempty] at hp; cases hp
  · intro done n rest s hl hinv
    have hmem : n ∈ sps.keys := (hall n).mp (by rw [hl]; simp)
    obtain ⟨sp, hsp⟩ := GoMap.mem_keys.mp hmem
    have hndone : n ∉ done := by
      rw [hl, List.nodup_append] at hnd
      intro hkd
      exact hnd.2.2 n hkd n (List.mem_cons_self ..) rfl
    have hwp := loadStaticPlugin_wp hsp (fun n' hn' sp' hsp' e => hndone (static_key_inj hok hsp' hsp e ▸ hn')) hinv
    rw [hsp]
    unfold wp at hwp
    unfold wp tagPanic wrapLoading
    simp only
    cases hx : loadStaticPlugin sp s with
    | mk e s' =>
      rw [hx] at hwp
      cases e with
      | ok a => exact hwp
      | err e =>
        exact ⟨hwp.1, sp, hsp, hwp.2⟩
      | panic p => exact hwp.2.elim
  · intro s hinv
    refine ⟨hinv.base, fun n hn => hinv.new n ((hall n).mpr hn), ?_, hinv.asked⟩
    intro k p hp
    obtain ⟨n, hn, r⟩ := hinv.only k p hp
    exact ⟨n, (hall n).mp hn, r⟩

/-- Success of `loadStatic`. -/
structure StaticDone (n0 : Nat) (it : Iter) (sps : GoMap StaticPlugin) (data : Nat) (s0 s1 s : LoadSt) : Prop where
  stage1 : StaticInv n0 s0.pm sps sps.keys s1
  fin : Finished s1 it data s
  body : BodyLog none n0 s
  good : GoodManager s.next s.pm

/-- Failure of `loadStatic`, before the cleanup. -/
inductive StaticFailed (n0 : Nat) (it : Iter) (sps : GoMap StaticPlugin) (data : Nat) (s0 : LoadSt) (f : Fail) (s : LoadSt) : Prop
  | early (base : Base none n0 s0.pm s) (why : StaticNewFail sps s f)
  | late (s1 : LoadSt) (done : StaticInv n0 s0.pm sps sps.keys s1) (why : FinishFailed s1 it data f s)

theorem loadStaticBody_wp {n0 : Nat} {s0 : LoadSt} (it : Iter) (sps : GoMap StaticPlugin) (data : Nat)
    (hok : StaticOK sps) (h0 : Fresh n0 s0) :
    wp (loadStaticBody it sps data)
      (fun _ s => ∃ s1, StaticDone n0 it sps data s0 s1 s)
      (fun f s => StaticFailed n0 it sps data s0 f s ∧ BodyLog none n0 s) s0 := by
  have hgood : ∀ om, (none : Option Manager) = some om → SoundManager n0 om := by intro om h; cases h
  unfold loadStaticBody
  simp only [wp_bind, wp_get]
  have hsz : s0.pm.pluginMap.size = 0 := by rw [h0.map]; rfl
  rw [if_neg (by omega)]
  have hb0 : Base none n0 s0.pm s0 := by
    refine ⟨?_, ?_, ?_, h0.lo, ?_, rfl, ?_, ?_, ?_, ?_, ?_⟩ <;> simp [h0.map, h0.acts, Keyed, Manager.insts, GoMap.vals, GoMap.empty, acquired, HooksIncr, GoMap.get?]
  simp only [wp_bind]
  refine wp_mono (loadStaticNew_wp it hok hb0 h0.map h0.acts) ?_ ?_
  · intro _ s1 h1
    have hpm := h1.base.pm
    have ho : s1.pm.ordered = [] := by rw [hpm]; exact h0.ordered
    refine wp_mono (finishLoad_wp it data h1.base.keyed h1.base.finishHyps ho (by rw [hpm]; exact h0.funcs) (by rw [hpm]; exact h0.types)) ?_ ?_
    · intro _ s h
      obtain ⟨v0, hl, _⟩ := h.log
      exact ⟨s1, h1, h, BodyLog.ofFinish hgood h1.base h.frame hl, good_of_finished hgood h1.base h⟩
    · intro f s h
      obtain ⟨im, ol, lf, lt, oi, v0, hl⟩ := h.log
      exact ⟨.late s1 h1 h, BodyLog.ofFinish hgood h1.base h.frame hl⟩
  · rintro f s ⟨hb, hf⟩
    exact ⟨.early hb hf, BodyLog.ofBase hb h0.ordered⟩

theorem loadStatic_wp {n0 : Nat} {s0 : LoadSt} (it : Iter) (sps : GoMap StaticPlugin) (data : Nat)
    (hok : StaticOK sps) (h0 : Fresh n0 s0) :
    wp (loadStatic it sps data)
      (fun _ s => ∃ s1, StaticDone n0 it sps data s0 s1 s)
      (fun f s => ∃ f0 sb, StaticFailed n0 it sps data s0 f0 sb ∧ BodyLog none n0 sb ∧ f = .inl (errOf f0) ∧
        s = { sb with acts := sb.acts ++ (freeOrder it sb.pm).map (fun p => .release p.inst) }) s0 := by
  unfold loadStatic
  refine wp_withCleanup (loadStaticBody_wp it sps data hok h0) ?_
  rintro f s ⟨h1, h2⟩
  exact ⟨f, s, h1, h2, rfl, rfl⟩

/-! ### callbacks and details -/

/-- The callback actions for these callbacks. -/
def cbActs (new : Nat) (old : Option Nat) (cbs : List (Nat × Outcome)) : List Act := cbs.map (fun c => .callback c.1 new old)

omit [GoRuntime] in
theorem callbacks_wp (it : Iter) (old : Option Manager) (cbs : List (Nat × Outcome)) {s0 : LoadSt} :
    wp (invokeReloadCallbacks it old cbs)
      (fun _ s => s = { s0 with acts := s0.acts ++ cbActs s0.pm.mid (old.map (·.mid)) cbs } ∧ ∀ c ∈ cbs, c.2 = .ok)
      (fun f s => f = .inl .callback ∧ ∃ done n o rest, cbs = done ++ (n, o) :: rest ∧ o ≠ .ok ∧ (∀ c ∈ done, c.2 = .ok) ∧
        s = { s0 with acts := s0.acts ++ cbActs s0.pm.mid (old.map (·.mid)) (done ++ [(n, o)]) ++ (freeOrder it s0.pm).map (fun p => .release p.inst) })
      s0 := by
  induction cbs generalizing s0 with
  | nil => simp [invokeReloadCallbacks, cbActs]
  | cons c r ih =>
    obtain ⟨n, o⟩ := c
    unfold invokeReloadCallbacks
    simp only [wp_bind, wp_get, wp_emit]
    have hbad : o ≠ .ok → ∀ s', s' = ({ s0 with acts := s0.acts ++ [Act.callback n s0.pm.mid (old.map (·.mid))] ++ (freeOrder it s0.pm).map (fun p => .release p.inst) } : LoadSt) →
        ∃ done n' o' rest, (n, o) :: r = done ++ (n', o') :: rest ∧ o' ≠ .ok ∧ (∀ c ∈ done, c.2 = .ok) ∧
        s' = { s0 with acts := s0.acts ++ cbActs s0.pm.mid (old.map (·.mid)) (done ++ [(n', o')]) ++ (freeOrder it s0.pm).map (fun p => .release p.inst) } := by
      rintro ho s' rfl
      exact ⟨[], n, o, r, rfl, ho, by simp, rfl⟩
    cases o with
    | ok =>
      refine wp_mono ih ?_ ?_
      · rintro _ s ⟨rfl, hok⟩
        refine ⟨by simp [cbActs], ?_⟩
        intro c hc
        rcases List.mem_cons.mp hc with rfl | hc
        · rfl
        · exact hok c hc
      · rintro f s ⟨rfl, done, n', o', rest, rfl, ho, hd, rfl⟩
        refine ⟨rfl, (n, .ok) :: done, n', o', rest, rfl, ho, ?_, by simp [cbActs]⟩
        intro c hc
        rcases List.mem_cons.mp hc with rfl | hc
        · rfl
        · exact hd c hc
    | err =>
      simp only [wp_bind, wp_throw]
      exact ⟨trivial, hbad (by simp) _ rfl⟩
    | panics =>
      simp only [wp_bind, wp_throw]
      exact ⟨trivial, hbad (by simp) _ rfl⟩

/-- The status of a plugin as `Details` reports it. -/
def statusOf (p : Plugin) : Str := if p.note.str ≠ [] then p.note.str else "ok".toList

theorem buildDetails_spec {pm : Manager} {files : List Str} {d0 : Details}
    (h : ∀ f ∈ files, ∃ p, pm.findPlugin (pluginName f) = some p) :
    ∃ d, buildDetails pm files d0 = some d ∧
      (∀ k v, d.get? k = some v → (∃ f ∈ files, ∃ p, pm.findPlugin (pluginName f) = some p ∧ p.file = k ∧ v = statusOf p) ∨ d0.get? k = some v) ∧
      (∀ f ∈ files, ∀ p, pm.findPlugin (pluginName f) = some p → ∃ v, d.get? p.file = some v) ∧
      (∀ k, d0.get? k ≠ none → d.get? k ≠ none) := by
  induction files generalizing d0 with
  | nil => exact ⟨d0, rfl, fun k v h => .inr h, by simp, fun _ h => h⟩
  | cons f r ih =>
    obtain ⟨p, hp⟩ := h f (by simp)
    obtain ⟨d, hd, h1, h2, h3⟩ := ih (d0 := d0.insert p.file (statusOf p)) (fun g hg => h g (List.mem_cons_of_mem _ hg))
    have hins : ∀ k, d0.get? k ≠ none → (d0.insert p.file (statusOf p)).get? k ≠ none := by
      intro k hk; rw [GoMap.get?_insert]; split
      · simp
      · exact hk
    refine ⟨d, ?_, ?_, ?_, fun k hk => h3 k (hins k hk)⟩
    · unfold buildDetails; rw [hp]; exact hd
    · intro k v hk
      rcases h1 k v hk with ⟨g, hg, q, h⟩ | h
      · exact .inl ⟨g, List.mem_cons_of_mem _ hg, q, h⟩
      · rw [GoMap.get?_insert] at h
        split at h
        · rename_i e; cases h
          exact .inl ⟨f, by simp, p, hp, e.symm, rfl⟩
        · exact .inr h
    · intro g hg q hq
      rcases List.mem_cons.mp hg with rfl | hg
      · rw [hp] at hq; cases hq
        have : d.get? p.file ≠ none := h3 p.file (by rw [GoMap.get?_insert, if_pos rfl]; simp)
        exact Option.ne_none_iff_exists'.mp this
      · exact h2 g hg q hq

end Hotswap
