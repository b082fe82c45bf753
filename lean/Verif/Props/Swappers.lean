import Verif.Model.Swappers
import Verif.Props.Packages

/-!
# Several swappers in one process (C84)
-/

namespace Hotswap

section
variable [GoRuntime]

omit [GoRuntime] in
theorem setAt_same {α : Type} {f : Nat → α} {j : Nat} {a : α} : setAt f j a j = a := by simp [setAt]
omit [GoRuntime] in
theorem setAt_ne {α : Type} {f : Nat → α} {j i : Nat} {a : α} (h : i ≠ j) : setAt f j a i = f i := by simp [setAt, h]

omit [GoRuntime] in
theorem nextAct_some {m : Machine} {a : Act} (h : m.nextAct = some a) : ∃ r rest, m.running = some r ∧ r.phase = .idle ∧ r.todo = a :: rest := by
  unfold Machine.nextAct at h
  cases hr : m.running with
  | none => rw [hr] at h; cases h
  | some r =>
    rw [hr] at h
    simp only at h
    split at h
    · rename_i hp
      cases ht : r.todo with
      | nil => rw [ht] at h; cases h
      | cons b rest => rw [ht] at h; cases h; exact ⟨r, rest, rfl, hp, ht⟩
    · cases h

/-- What a step other than the beginning of a load makes of what remains to be done. -/
theorem Step.todo_next {cfg : Config} {m m' : Machine} {lab : Label} (h : Step cfg m lab m') (hno : ∀ k env, lab = .call k env → Hotswap.refused cfg k = true) {r' : Running} (hr : m'.running = some r') :
    ∃ r, m.running = some r ∧ r'.res = r.res ∧ (r'.todo = r.todo ∨ ∃ a, lab = .act ∧ m.nextAct = some a ∧ r.todo = a :: r'.todo) := by
  cases h with
  | call k env h run => rw [hno k env rfl] at h; cases h
  | act r0 a rest run phase todo plain =>
    change some _ = some r' at hr
    cases hr
    exact ⟨r0, run, rfl, .inr ⟨a, rfl, by simp [Machine.nextAct, run, phase, todo], todo⟩⟩
  | release r0 i rest run phase todo =>
    change some _ = some r' at hr
    cases hr
    exact ⟨r0, run, rfl, .inr ⟨_, rfl, by simp [Machine.nextAct, run, phase, todo], todo⟩⟩
  | runSkip r0 i run => cases hr; exact ⟨r0, run, rfl, .inl rfl⟩
  | runBegin r0 i run => cases hr; exact ⟨r0, run, rfl, .inl rfl⟩
  | runEnd r0 i run => cases hr; exact ⟨r0, run, rfl, .inl rfl⟩
  | ret r0 run => cases hr
  | _ => exact ⟨r', hr, rfl, .inl rfl⟩

/-- The next action is done. -/
theorem act_done {cfg : Config} {m m' : Machine} {a : Act} (hn : m.nextAct = some a) (h : m.step cfg .act = some m') {r' : Running} (hr : m'.running = some r') :
    ∃ r, m.running = some r ∧ r'.res = r.res ∧ r.todo = a :: r'.todo := by
  obtain ⟨r, rest, h1, h2, h3⟩ := nextAct_some hn
  have hs := step_view h
  generalize hl : Label.act = lab at hs
  cases hs with
  | act r0 b rest' run phase todo plain =>
    change some _ = some r' at hr
    cases hr
    rw [run] at h1; cases h1
    rw [todo] at h3; cases h3
    exact ⟨r, run, rfl, todo⟩
  | release r0 i rest' run phase todo =>
    change some _ = some r' at hr
    cases hr
    rw [run] at h1; cases h1
    rw [todo] at h3; cases h3
    exact ⟨r, run, rfl, todo⟩
  | runSkip r0 i run phase => rw [run] at h1; cases h1; rw [phase] at h2; cases h2
  | runBegin r0 i run phase => rw [run] at h1; cases h1; rw [phase] at h2; cases h2
  | runEnd r0 i run phase => rw [run] at h1; cases h1; rw [phase] at h2; cases h2
  | _ => cases hl

/-- A running load, and what it has to do with the loader. -/
structure LiveLoad (cfg : Config) (P : Process) (s : Procs) (r : Running) (c : LoadCtx) : Prop where
  plan : ∃ done k m0, Reachable cfg m0 ∧ refused cfg k = false ∧ (plan cfg c.env k m0.current m0.next).acts = done ++ r.todo ∧ r.res = (Hotswap.plan cfg c.env k m0.current m0.next).res ∧
    (∀ e ∈ s.uses, e.load = c.load → (e.inst, e.file) ∈ openedFor none done) ∧
    (∀ f p, c.opened = some (f, p) → lastOpened none done = some f ∧ ∃ d, c.env.fs.readFile f = some d ∧ (P.copy c.stamp f d, some p) ∈ s.loader.cache) ∧
    (∀ f syms code, lastOpened none done = some f → c.env.fs.openPlugin f = .image syms code → c.opened ≠ none)
  load : s.loads[c.load]? = some (c.stamp, c.env.dir.map (·.1))
  dir : ∀ dir entries, c.env.dir = some (dir, entries) → CleanDir dir ∧ RealEntries entries

/-- What is known about a process with several swappers. -/
structure SInv (cfg : Nat → Config) (P : Process) (s : Procs) : Prop where
  sound : s.loader.Sound
  reach : ∀ j, Reachable (cfg j) (s.machines j)
  valid : ∀ a ∈ s.loads, a.1.Valid
  run : ∀ j r, (s.machines j).running = some r → ∃ c, s.ctx j = some c ∧ LiveLoad (cfg j) P s r c
  ctxLoad : ∀ j c, s.ctx j = some c → c.load < s.loads.length
  ctxInj : ∀ i j c d, s.ctx i = some c → s.ctx j = some d → c.load = d.load → i = j
  useLoad : ∀ e ∈ s.uses, ∃ st dir x d, s.loads[e.load]? = some (st, some dir) ∧ CleanDir dir ∧ '/' ∉ x ∧ e.file = joinPath dir (x ++ fileNameExt) ∧ (P.copy st e.file d, some e.pkg) ∈ s.loader.cache
  one : ∀ e ∈ s.uses, ∀ e' ∈ s.uses, e.load = e'.load → e.file = e'.file → e.swapper = e'.swapper ∧ e.inst = e'.inst
  owner : ∀ e ∈ s.uses, ∀ j c, s.ctx j = some c → c.load = e.load → e.swapper = j

/-- What a live load knows stays true when other things happen. -/
theorem LiveLoad.later {cfg : Config} {P : Process} {s s' : Procs} {r : Running} {c : LoadCtx} (h : LiveLoad cfg P s r c) (huse : ∀ e ∈ s'.uses, e.load = c.load → e ∈ s.uses)
    (hc : ∀ e ∈ s.loader.cache, e ∈ s'.loader.cache) (hl : s'.loads[c.load]? = s.loads[c.load]?) : LiveLoad cfg P s' r c := by
  obtain ⟨done, k, m0, h1, h2, h3, h4, h5, h6, h7⟩ := h.plan
  refine ⟨⟨done, k, m0, h1, h2, h3, h4, ?_, ?_, h7⟩, by rw [hl]; exact h.load, h.dir⟩
  · intro e he hl; exact h5 e (huse e he hl) hl
  · intro f p ho
    obtain ⟨a, d, b1, b2⟩ := h6 f p ho
    exact ⟨a, d, b1, hc _ b2⟩

omit [GoRuntime] in
theorem lastOpened_snoc {o : Option Str} {l : List Act} {a : Act} (ha : ∀ f, a ≠ .openPlugin f) : lastOpened o (l ++ [a]) = lastOpened o l := by
  rw [lastOpened_append]
  cases a <;> first | rfl | exact absurd rfl (ha _)

omit [GoRuntime] in
theorem openedFor_snoc {o : Option Str} {l : List Act} {a : Act} {e : Nat × Str} (h : e ∈ openedFor o l) : e ∈ openedFor o (l ++ [a]) := by
  rw [openedFor_append]; exact List.mem_append_left _ h

theorem SInv.init {cfg : Nat → Config} {P : Process} : SInv cfg P .init where
  sound := ⟨by simp [Procs.init], by simp [Procs.init]⟩
  reach := fun _ => .init
  valid := by simp [Procs.init]
  run := by intro j r h; cases h
  ctxLoad := by intro j c h; cases h
  ctxInj := by intro i j c d h; cases h
  useLoad := by simp [Procs.init]
  one := by simp [Procs.init]
  owner := by simp [Procs.init]

theorem SInv.step {cfg : Nat → Config} {P : Process} {s s' : Procs} (h : SInv cfg P s) (hs : PStep cfg P s s') : SInv cfg P s' := by
  cases hs with
  | call j k env stamp m' hstep href hv hdir =>
    have hget : ∀ n, n < s.loads.length → (s.loads ++ [(stamp, env.dir.map (·.1))])[n]? = s.loads[n]? := fun n hn => List.getElem?_append_left hn
    constructor
    · exact h.sound
    · intro i
      by_cases hi : i = j
      · subst hi; change Reachable (cfg i) (setAt s.machines i m' i); rw [setAt_same]; exact .step _ (h.reach i) hstep
      · change Reachable (cfg i) (setAt s.machines j m' i); rw [setAt_ne hi]; exact h.reach i
    · intro a ha
      rcases List.mem_append.mp ha with ha | ha
      · exact h.valid a ha
      · rw [List.mem_singleton] at ha; subst ha; exact hv
    · intro i r hr
      change (setAt s.machines j m' i).running = some r at hr
      show ∃ c, setAt s.ctx j _ i = some c ∧ _
      by_cases hi : i = j
      · subst hi
        rw [setAt_same] at hr ⊢
        refine ⟨_, rfl, ?_⟩
        have hstep' := step_view hstep
        generalize hl : Label.call k env = lab at hstep'
        cases hstep' with
        | refused k' env' hr' => cases hl; rw [href] at hr'; cases hr'
        | call k' env' hr' run =>
          cases hl
          change some _ = some r at hr
          cases hr
          refine ⟨⟨[], k, s.machines i, h.reach i, href, rfl, rfl, ?_, ?_, ?_⟩, ?_, hdir⟩
          · intro e he hl
            obtain ⟨st, dir, x, d, h1, _⟩ := h.useLoad e he
            change e.load = s.loads.length at hl
            rw [hl] at h1
            simp at h1
          · intro f p ho; cases ho
          · intro f syms code hlo; cases hlo
          · simp
        | _ => cases hl
      · rw [setAt_ne hi] at hr ⊢
        obtain ⟨c, hc, hlive⟩ := h.run i r hr
        exact ⟨c, hc, hlive.later (fun e he _ => he) (fun e he => he) (hget _ (h.ctxLoad i c hc))⟩
    · intro i c hc
      change setAt s.ctx j _ i = some c at hc
      show c.load < (s.loads ++ _).length
      rw [List.length_append]
      by_cases hi : i = j
      · subst hi; rw [setAt_same] at hc; cases hc; simp
      · rw [setAt_ne hi] at hc
        have := h.ctxLoad i c hc
        simp; omega
    · intro i i' c d hc hd hcd
      change setAt s.ctx j _ i = some c at hc
      change setAt s.ctx j _ i' = some d at hd
      by_cases hi : i = j <;> by_cases hi' : i' = j
      · rw [hi, hi']
      · subst hi; rw [setAt_same] at hc; rw [setAt_ne hi'] at hd; cases hc
        have := h.ctxLoad i' d hd
        simp only at hcd; omega
      · subst hi'; rw [setAt_same] at hd; rw [setAt_ne hi] at hc; cases hd
        have := h.ctxLoad i c hc
        simp only at hcd; omega
      · rw [setAt_ne hi] at hc; rw [setAt_ne hi'] at hd; exact h.ctxInj i i' c d hc hd hcd
    · intro e he
      obtain ⟨st, dir, x, d, h1, h2⟩ := h.useLoad e he
      refine ⟨st, dir, x, d, ?_, h2⟩
      show (s.loads ++ _)[e.load]? = _
      rw [hget]
      · exact h1
      · exact (List.getElem?_eq_some_iff.mp h1).1
    · exact h.one
    · intro e he i c hc hl
      change setAt s.ctx j _ i = some c at hc
      by_cases hi : i = j
      · subst hi
        rw [setAt_same] at hc; cases hc
        obtain ⟨st, dir, x, d, h1, _⟩ := h.useLoad e he
        rw [← hl] at h1
        simp at h1
      · rw [setAt_ne hi] at hc; exact h.owner e he i c hc hl
  | opens j c f data l' m' hc hn hread ho hstep =>
    have hsub : ∀ e ∈ s.loader.cache, e ∈ l'.cache := fun e he => ho.sub he
    have hsound := ho.sound h.sound
    have hctx : ∀ i d, setAt s.ctx j (some { c with opened := (l'.package (P.copy c.stamp f data)).map (fun p => (f, p)) }) i = some d → ∃ d', s.ctx i = some d' ∧ d'.load = d.load := by
      intro i d hd
      by_cases hi : i = j
      · subst hi; rw [setAt_same] at hd; cases hd; exact ⟨c, hc, rfl⟩
      · rw [setAt_ne hi] at hd; exact ⟨d, hd, rfl⟩
    constructor
    · exact hsound
    · intro i
      by_cases hi : i = j
      · subst hi; change Reachable (cfg i) (setAt s.machines i m' i); rw [setAt_same]; exact .step _ (h.reach i) hstep
      · change Reachable (cfg i) (setAt s.machines j m' i); rw [setAt_ne hi]; exact h.reach i
    · exact h.valid
    · intro i r hr
      change (setAt s.machines j m' i).running = some r at hr
      show ∃ c, setAt s.ctx j _ i = some c ∧ _
      by_cases hi : i = j
      · subst hi
        rw [setAt_same] at hr ⊢
        refine ⟨_, rfl, ?_⟩
        obtain ⟨r0, e1, e2, e3⟩ := act_done hn hstep hr
        obtain ⟨c', hc', hlive⟩ := h.run i r0 e1
        rw [hc] at hc'; cases hc'
        obtain ⟨done, k, m0, h1, h2, h3, h4, h5, h6, h7⟩ := hlive.plan
        have hlo : lastOpened none (done ++ [.openPlugin f]) = some f := by rw [lastOpened_append]; rfl
        refine ⟨⟨done ++ [.openPlugin f], k, m0, h1, h2, by rw [h3, e3]; simp, by rw [e2]; exact h4, ?_, ?_, ?_⟩, hlive.load, hlive.dir⟩
        · intro e he hl; exact openedFor_snoc (h5 e he hl)
        · intro f' p hp
          change (l'.package (P.copy c.stamp f data)).map _ = some (f', p) at hp
          cases hpk : l'.package (P.copy c.stamp f data) with
          | none => rw [hpk] at hp; cases hp
          | some q =>
            rw [hpk] at hp; cases hp
            refine ⟨hlo, data, hread, ?_⟩
            unfold Loader.package at hpk
            cases hlk : l'.cache.lookup (P.copy c.stamp f data) with
            | none => rw [hlk] at hpk; cases hpk
            | some o =>
              rw [hlk] at hpk
              cases o with
              | none => cases hpk
              | some q' => cases hpk; exact cache_of_lookup hlk
        · intro f' syms code hf' himg
          rw [hlo] at hf'; cases hf'
          change c.env.fs.openPlugin f = .image syms code at himg
          show (l'.package (P.copy c.stamp f data)).map _ ≠ none
          have : ∃ p, (P.copy c.stamp f data, some p) ∈ l'.cache := by
            rw [himg] at ho
            cases ho with
            | again hm => exact ⟨_, hm⟩
            | @loads p _ _ _ _ _ _ => exact ⟨p, by simp⟩
          obtain ⟨p, hp⟩ := this
          have := hsound.lookup hp
          simp [Loader.package, this]
      · rw [setAt_ne hi] at hr ⊢
        obtain ⟨d, hd, hlive⟩ := h.run i r hr
        exact ⟨d, hd, hlive.later (fun e he _ => he) hsub rfl⟩
    · intro i d hd
      obtain ⟨d', h1, h2⟩ := hctx i d hd
      rw [← h2]; exact h.ctxLoad i d' h1
    · intro i i' d e hd he hde
      obtain ⟨d', h1, h2⟩ := hctx i d hd
      obtain ⟨e', h3, h4⟩ := hctx i' e he
      exact h.ctxInj i i' d' e' h1 h3 (by rw [h2, h4, hde])
    · intro e he
      obtain ⟨st, dir, x, d, h1, h2, h3, h4, h5⟩ := h.useLoad e he
      exact ⟨st, dir, x, d, h1, h2, h3, h4, hsub _ h5⟩
    · exact h.one
    · intro e he i d hd hl
      obtain ⟨d', h1, h2⟩ := hctx i d hd
      exact h.owner e he i d' h1 (by rw [h2]; exact hl)
  | begins j c i f p m' hc hn hop hstep =>
    obtain ⟨r0, rest0, q1, q2, q3⟩ := nextAct_some hn
    obtain ⟨c', hc', hlive⟩ := h.run j r0 q1
    rw [hc] at hc'; cases hc'
    obtain ⟨done, k, m0, h1, h2, h3, h4, h5, h6, h7⟩ := hlive.plan
    obtain ⟨hlo, d0, hread, hcache⟩ := h6 f p hop
    have hopened : openedFor none (done ++ [.callReloadable i]) = openedFor none done ++ [(i, f)] := by rw [openedFor_append, hlo]; rfl
    obtain ⟨hnd, hopn⟩ := plan_openLog_any (cfg := cfg j) (env := c.env) (k := k) (old := m0.current) (next := m0.next)
    have hpre : openedFor none (plan (cfg j) c.env k m0.current m0.next).acts = openedFor none done ++ [(i, f)] ++ openedFor (lastOpened none (done ++ [.callReloadable i])) rest0 := by
      rw [h3, q3, show done ++ Act.callReloadable i :: rest0 = (done ++ [.callReloadable i]) ++ rest0 by simp, openedFor_append, hopened]
    have hfresh : ∀ e ∈ s.uses, e.load = c.load → e.file ≠ f := by
      intro e he hl hf
      have hm := h5 e he hl
      rw [hpre, List.append_assoc, List.map_append, List.nodup_append] at hnd
      exact hnd.2.2 f (List.mem_map.mpr ⟨_, hm, hf⟩) f (by simp) rfl
    constructor
    · exact h.sound
    · intro n
      by_cases hi : n = j
      · subst hi; change Reachable (cfg n) (setAt s.machines n m' n); rw [setAt_same]; exact .step _ (h.reach n) hstep
      · change Reachable (cfg n) (setAt s.machines j m' n); rw [setAt_ne hi]; exact h.reach n
    · exact h.valid
    · intro n r hr
      change (setAt s.machines j m' n).running = some r at hr
      by_cases hi : n = j
      · subst hi
        rw [setAt_same] at hr
        refine ⟨c, hc, ?_⟩
        obtain ⟨r1, e1, e2, e3⟩ := act_done hn hstep hr
        rw [q1] at e1; cases e1
        rw [q3] at e3; cases e3
        refine ⟨⟨done ++ [.callReloadable i], k, m0, h1, h2, by rw [h3, q3]; simp, by rw [e2]; exact h4, ?_, ?_, ?_⟩, hlive.load, hlive.dir⟩
        · intro e he hl
          rcases List.mem_append.mp he with he | he
          · exact openedFor_snoc (h5 e he hl)
          · rw [List.mem_singleton] at he; subst he
            rw [hopened]; simp
        · intro f' p' hp'
          rw [lastOpened_snoc (by intro g hg; cases hg)]
          exact h6 f' p' hp'
        · intro f' syms code hf'
          rw [lastOpened_snoc (by intro g hg; cases hg)] at hf'
          exact h7 f' syms code hf'
      · rw [setAt_ne hi] at hr
        obtain ⟨d, hd, hl'⟩ := h.run n r hr
        refine ⟨d, hd, hl'.later ?_ (fun e he => he) rfl⟩
        intro e he hl
        rcases List.mem_append.mp he with he | he
        · exact he
        · rw [List.mem_singleton] at he; subst he
          exact absurd (h.ctxInj j n c d hc hd hl) (fun he => hi he.symm)
    · exact h.ctxLoad
    · exact h.ctxInj
    · intro e he
      rcases List.mem_append.mp he with he | he
      · exact h.useLoad e he
      · rw [List.mem_singleton] at he; subst he
        have hm : (i, f) ∈ openedFor none (plan (cfg j) c.env k m0.current m0.next).acts := by rw [hpre]; simp
        obtain ⟨_, dir, es, hdd, hlst, _⟩ := plan_opens (hopn _ hm).1
        obtain ⟨en, hen, hce, hfe⟩ := (C30_considered (cfg j) dir es f).mp hlst
        obtain ⟨x, hx⟩ := hce.2.1
        change x ++ fileNameExt = en.name at hx
        refine ⟨c.stamp, dir, x, d0, ?_, (hlive.dir _ _ hdd).1, ?_, ?_, hcache⟩
        · show s.loads[c.load]? = _
          rw [hlive.load, hdd]; rfl
        · intro hmem
          refine (hlive.dir _ _ hdd).2 en hen ?_
          rw [← hx]; simp [hmem]
        · show f = _
          rw [hx]; exact hfe
    · intro e he e' he' hl hf
      rcases List.mem_append.mp he with he | he <;> rcases List.mem_append.mp he' with he' | he'
      · exact h.one e he e' he' hl hf
      · rw [List.mem_singleton] at he'; subst he'
        exact absurd hf (hfresh e he hl)
      · rw [List.mem_singleton] at he; subst he
        exact absurd hf.symm (hfresh e' he' hl.symm)
      · rw [List.mem_singleton] at he he'; subst he he'; exact ⟨rfl, rfl⟩
    · intro e he n d hd hl
      rcases List.mem_append.mp he with he | he
      · exact h.owner e he n d hd hl
      · rw [List.mem_singleton] at he; subst he
        exact h.ctxInj j n c d hc hd hl.symm
  | other j lab m' hno hguard hstep =>
    constructor
    · exact h.sound
    · intro n
      by_cases hi : n = j
      · subst hi; change Reachable (cfg n) (setAt s.machines n m' n); rw [setAt_same]; exact .step _ (h.reach n) hstep
      · change Reachable (cfg n) (setAt s.machines j m' n); rw [setAt_ne hi]; exact h.reach n
    · exact h.valid
    · intro n r hr
      change (setAt s.machines j m' n).running = some r at hr
      by_cases hi : n = j
      · subst hi
        rw [setAt_same] at hr
        obtain ⟨r0, e1, e2, e3⟩ := (step_view hstep).todo_next hno hr
        obtain ⟨c, hc, hlive⟩ := h.run n r0 e1
        refine ⟨c, hc, ?_⟩
        obtain ⟨done, k, m0, h1, h2, h3, h4, h5, h6, h7⟩ := hlive.plan
        rcases e3 with e3 | ⟨a, hlab, hna, e3⟩
        · exact ⟨⟨done, k, m0, h1, h2, by rw [h3, e3], by rw [e2]; exact h4, h5, h6, h7⟩, hlive.load, hlive.dir⟩
        · have hao : ∀ f, a ≠ .openPlugin f := by
            intro f he; subst he
            exact (hguard hlab).1 f hna
          refine ⟨⟨done ++ [a], k, m0, h1, h2, by rw [h3, e3]; simp, by rw [e2]; exact h4, ?_, ?_, ?_⟩, hlive.load, hlive.dir⟩
          · intro e he hl; exact openedFor_snoc (h5 e he hl)
          · intro f p hp; rw [lastOpened_snoc hao]; exact h6 f p hp
          · intro f syms code hf; rw [lastOpened_snoc hao] at hf; exact h7 f syms code hf
      · rw [setAt_ne hi] at hr
        obtain ⟨d, hd, hl'⟩ := h.run n r hr
        exact ⟨d, hd, hl'.later (fun e he _ => he) (fun e he => he) rfl⟩
    · exact h.ctxLoad
    · exact h.ctxInj
    · exact h.useLoad
    · exact h.one
    · exact h.owner

theorem PSteps.inv {cfg : Nat → Config} {P : Process} {s : Procs} (h : PSteps cfg P s) : SInv cfg P s := by
  induction h with
  | init => exact .init
  | step _ hs ih => exact ih.step hs

/-! ### C84 -/

/-- **C84.** However many swappers a process has, and however their loads overlap: each of them goes through a run of a single swapper, in which `plugin.Open` may answer anything. So the other properties hold of each of them. -/
theorem C84_each_swapper {cfg : Nat → Config} {P : Process} {s : Procs} (h : PSteps cfg P s) (j : Nat) : Reachable (cfg j) (s.machines j) := h.inv.reach j

/-- No two loads of the process, of the same or of different swappers, begin in the same second in the same directory. -/
def ApartLoads (loads : List (Civil × Option Str)) : Prop := loads.Pairwise (fun a b => ¬(SameStamp a.1 b.1 ∧ a.2 = b.2))

omit [GoRuntime] in
theorem SameStamp.symm {a b : Civil} (h : SameStamp a b) : SameStamp b a := by
  obtain ⟨h1, h2, h3, h4, h5, h6⟩ := h
  exact ⟨h1.symm, h2.symm, h3.symm, h4.symm, h5.symm, h6.symm⟩

omit [GoRuntime] in
theorem ApartLoads.same {loads : List (Civil × Option Str)} (h : ApartLoads loads) {m n : Nat} {a b : Civil × Option Str} (ha : loads[m]? = some a) (hb : loads[n]? = some b) (hs : SameStamp a.1 b.1) (hd : a.2 = b.2) : m = n := by
  obtain ⟨hm, rfl⟩ := List.getElem?_eq_some_iff.mp ha
  obtain ⟨hn, rfl⟩ := List.getElem?_eq_some_iff.mp hb
  unfold ApartLoads at h
  rw [List.pairwise_iff_getElem] at h
  rcases Nat.lt_trichotomy m n with hlt | heq | hgt
  · exact absurd ⟨hs, hd⟩ (h m n hm hn hlt)
  · exact heq
  · exact absurd ⟨hs.symm, hd.symm⟩ (h n m hn hm hgt)

/-- **C84.** In a process with any number of swappers, in which no two loads begin in the same second in the same directory, a Go package is used by one instance of one swapper only. -/
theorem C84_one_instance_per_package {cfg : Nat → Config} {P : Process} {s : Procs} (h : PSteps cfg P s) (hap : ApartLoads s.loads) {e e' : Use} (he : e ∈ s.uses) (he' : e' ∈ s.uses) (hp : e.pkg = e'.pkg) :
    e.swapper = e'.swapper ∧ e.inst = e'.inst := by
  have hi := h.inv
  obtain ⟨st, dir, x, d, h1, h2, h3, h4, h5⟩ := hi.useLoad e he
  obtain ⟨st', dir', x', d', h1', h2', h3', h4', h5'⟩ := hi.useLoad e' he'
  rw [hp] at h5
  have hpath := hi.sound.packs _ _ _ h5 h5'
  rw [h4, h4'] at hpath
  have := (C60_copies_of_loads (hi.valid _ (List.mem_of_getElem? h1)) (hi.valid _ (List.mem_of_getElem? h1')) _ _ _ _ _ _ _ _ h2 h2' h3 h3').mp hpath
  obtain ⟨rfl, rfl, _, _, hs⟩ := this
  exact hi.one e he e' he' (hap.same h1 h1' hs rfl) (by rw [h4, h4'])

/-- **C84.** Under the same condition: all calls of functions of a package are those of one instance of one swapper, each function at most once and in the order of C03. -/
theorem C84_package_lifecycle {cfg : Nat → Config} (hcfg : ∀ j, (cfg j).OK) {P : Process} {s : Procs} (h : PSteps cfg P s) (hap : ApartLoads s.loads) (p : Str) :
    (∀ e ∈ s.uses, e.pkg ≠ p) ∨ ∃ j i, (∀ e ∈ s.uses, e.pkg = p → e.swapper = j ∧ e.inst = i) ∧
      ((s.machines j).hooksOf i).Sublist [.reloadable, .export, .import, .onLoad, .onInit, .onFree] := by
  by_cases hp : ∃ e ∈ s.uses, e.pkg = p
  · obtain ⟨e, he, hep⟩ := hp
    refine .inr ⟨e.swapper, e.inst, ?_, C03_lifecycle (hcfg _) (C84_each_swapper h _) _⟩
    intro e' he' hep'
    exact C84_one_instance_per_package h hap he' he (by rw [hep, hep'])
  · exact .inl (fun e he hep => hp ⟨e, he, hep⟩)

/-- The actions in the history are those of the loads. -/
theorem Step.emits_act {cfg : Config} {m m' : Machine} {lab : Label} (h : Step cfg m lab m') {a : Act} (ha : Ev.act a ∈ m'.events) : Ev.act a ∈ m.events ∨ (lab = .act ∧ m.nextAct = some a) := by
  have key : ∀ {e : Ev} {t : Nat}, m'.trace = m.trace ++ [(t, e)] → e ≠ .act a → Ev.act a ∈ m.events := by
    intro e t he hne
    unfold Machine.events at ha ⊢
    rw [he, List.map_append] at ha
    rcases List.mem_append.mp ha with h | h
    · exact h
    · simp at h; exact absurd h.symm hne
  cases h with
  | act r b rest run phase todo plain =>
    by_cases hb : b = a
    · subst hb; exact .inr ⟨rfl, by simp [Machine.nextAct, run, phase, todo]⟩
    · exact .inl (key perform_trace (fun he => hb (by cases he; rfl)))
  | release r i rest run phase todo =>
    by_cases hb : Act.release i = a
    · subst hb; exact .inr ⟨rfl, by simp [Machine.nextAct, run, phase, todo]⟩
    · exact .inl (key (e := .act (.release i)) (t := m.now) rfl (fun he => hb (by cases he; rfl)))
  | refused k env h => exact .inl (key (e := .refused) (t := m.now) rfl (by intro he; cases he))
  | call k env h run => exact .inl (key (e := .called k) (t := m.now) rfl (by intro he; cases he))
  | runBegin r i run phase once => exact .inl (key (e := .freeBegin i) (t := m.now) rfl (by intro he; cases he))
  | runEnd r i run phase => exact .inl (key (e := .freeEnd i) (t := m.now) rfl (by intro he; cases he))
  | ret r run todo phase => exact .inl (key (e := .returned r.kind r.res) (t := m.now) rfl (by intro he; cases he))
  | freeBegin t x y frees i phase once => exact .inl (key (e := .freeBegin i) (t := m.now) rfl (by intro he; cases he))
  | freeEnd t x y frees i phase => exact .inl (key (e := .freeEnd i) (t := m.now) rfl (by intro he; cases he))
  | read => exact .inl (key (e := .observed (m.current.map (·.mid))) (t := m.now) rfl (by intro he; cases he))
  | readCounter => exact .inl (key (e := .counted m.counter) (t := m.now) rfl (by intro he; cases he))
  | _ => exact .inl ha

/-- **C84.** Every instance that a swapper makes from a file has a Go package. -/
theorem C84_every_instance_has_a_package {cfg : Nat → Config} {P : Process} {s : Procs} (h : PSteps cfg P s) {j : Nat} (hst : (cfg j).static = none) {i : Nat} (hi : Hook.reloadable ∈ (s.machines j).hooksOf i) :
    ∃ e ∈ s.uses, e.swapper = j ∧ e.inst = i := by
  have key : ∀ i, Ev.act (.callReloadable i) ∈ (s.machines j).events → ∃ e ∈ s.uses, e.swapper = j ∧ e.inst = i := by
    clear hi i
    induction h with
    | init => intro i hi; simp [Machine.events, Procs.init, Machine.init] at hi
    | @step s s' hrun hs ih =>
      intro i hi
      cases hs with
      | call n k env stamp m' hstep href hv hdir =>
        change Ev.act (.callReloadable i) ∈ (setAt s.machines n m' j).events at hi
        by_cases hn : j = n
        · subst hn
          rw [setAt_same] at hi
          rcases (step_view hstep).emits_act hi with h | ⟨h, _⟩
          · exact ih i h
          · cases h
        · rw [setAt_ne hn] at hi; exact ih i hi
      | opens n c f data l' m' hc hnx hread ho hstep =>
        change Ev.act (.callReloadable i) ∈ (setAt s.machines n m' j).events at hi
        by_cases hn : j = n
        · subst hn
          rw [setAt_same] at hi
          rcases (step_view hstep).emits_act hi with h | ⟨_, h⟩
          · exact ih i h
          · rw [hnx] at h; cases h
        · rw [setAt_ne hn] at hi; exact ih i hi
      | begins n c i' f p m' hc hnx hop hstep =>
        change Ev.act (.callReloadable i) ∈ (setAt s.machines n m' j).events at hi
        have old : Ev.act (.callReloadable i) ∈ (s.machines j).events → ∃ e ∈ s.uses ++ [⟨c.load, f, n, i', p⟩], e.swapper = j ∧ e.inst = i := by
          intro h
          obtain ⟨e, he, h'⟩ := ih i h
          exact ⟨e, List.mem_append_left _ he, h'⟩
        by_cases hn : j = n
        · subst hn
          rw [setAt_same] at hi
          rcases (step_view hstep).emits_act hi with h | ⟨_, h⟩
          · exact old h
          · rw [hnx] at h; cases h
            exact ⟨⟨c.load, f, j, i, p⟩, List.mem_append_right _ (by simp), rfl, rfl⟩
        · rw [setAt_ne hn] at hi; exact old hi
      | other n lab m' hno hguard hstep =>
        change Ev.act (.callReloadable i) ∈ (setAt s.machines n m' j).events at hi
        by_cases hn : j = n
        · subst hn
          rw [setAt_same] at hi
          rcases (step_view hstep).emits_act hi with h | ⟨hl, h⟩
          · exact ih i h
          · exfalso
            obtain ⟨r, rest, q1, q2, q3⟩ := nextAct_some h
            obtain ⟨c, hc, hlive⟩ := hrun.inv.run j r q1
            have hnone := (hguard hl).2 i h c hc
            obtain ⟨done, k, m0, h1, h2, h3, h4, h5, h6, h7⟩ := hlive.plan
            obtain ⟨_, _, _, hbefore⟩ := plan_openLog (cfg := cfg j) (env := c.env) (k := k) (old := m0.current) (next := m0.next) (.inl hst)
            obtain ⟨f, syms, code, hlo, himg⟩ := hbefore done i rest (by rw [h3, q3])
            exact h7 f syms code hlo himg hnone
        · rw [setAt_ne hn] at hi; exact ih i hi
  have hi' : (i, Hook.reloadable) ∈ (s.machines j).hooks := by
    unfold Machine.hooksOf at hi
    obtain ⟨⟨n, g⟩, hm, rfl⟩ := List.mem_map.mp hi
    obtain ⟨h1, h2⟩ := List.mem_filter.mp hm
    simp at h2; subst h2; exact h1
  unfold Machine.hooks at hi'
  obtain ⟨e, he, hh⟩ := List.mem_filterMap.mp hi'
  cases e with
  | act a =>
    cases a <;> simp [evHook, hookOf] at hh
    subst hh
    exact key _ he
  | _ => simp [evHook] at hh

/-- What a load that succeeds has opened, `plugin.Open` has opened without error. -/
theorem opened_image {cfg : Config} (hcfg : cfg.OK) {m : Machine} (h : Reachable cfg m) (env : Env) {k : Kind} (hk : refused cfg k = false) {d : Details} (hr : (plan cfg env k m.current m.next).res = .ok d)
    {f : Str} (hf : Act.openPlugin f ∈ (plan cfg env k m.current m.next).acts) : ∃ syms code, env.fs.openPlugin f = .image syms code := by
  have hv := view hcfg h env k
  obtain ⟨hdyn, absDir, entries, hdir, hwhy⟩ := plan_opens hf
  have hst : cfg.static = none := by
    rcases hdyn with h | h
    · exact h
    · cases k with
      | load => exact absurd rfl h
      | reload extra => simpa [refused] using hk
  rcases hv.success hk hr with ⟨_, _, _, a, es, hd, hnil⟩ | ⟨_, hpub⟩
  · rw [hdir] at hd; cases hd
    have := hwhy.1; rw [hnil] at this; cases this
  · have hpm : Act.publish (plan cfg env k m.current m.next).built ∈ (plan cfg env k m.current m.next).acts := mem_publishes.mp (by rw [hpub]; simp)
    obtain ⟨absDir', entries', s0, s1, s', d', hd, _, cr, done, _, _, _, _⟩ := hv.dynamic hst hpm
    rw [hdir] at hd; cases hd
    obtain ⟨data', q, hread', hget, hfate⟩ := done.stage1.fate f hwhy.1
    have hnew := hwhy.2.1
    cases hfate with
    | notReloadable om old ho hk hr' hpe =>
      have := (hnew om old data' ho hk hread').1
      rw [hr'] at this; cases this
    | unchanged om old ho hk hr' hs' hpe => exact absurd hs' (hnew om old data' ho hk hread').2
    | renewed hno hb =>
      obtain ⟨syms, hi, _⟩ := hb.image
      exact ⟨syms, _, hi⟩

/-- **C84.** The same build cannot be loaded by two swappers: when a load comes to a file whose plugin path is in the process already (whichever swapper loaded it, and whether or not that load succeeded), and no load of the same second has
opened the same file, then `plugin.Open` fails and so does the load. -/
theorem C84_not_opened_twice {cfg : Nat → Config} (hcfg : ∀ j, (cfg j).OK) {P : Process} {s : Procs} (h : PSteps cfg P s) {j : Nat} {c : LoadCtx} {f : Str} {data : Nat} {l' : Loader} (hc : s.ctx j = some c)
    (hn : (s.machines j).nextAct = some (.openPlugin f)) (_hread : c.env.fs.readFile f = some data) (ho : Opens s.loader (P.copy c.stamp f data) (P.build data) (c.env.fs.openPlugin f) l')
    {p : Str} (hp : (P.build data).pluginPath = some p) (hloaded : p ∈ s.loader.loaded) (hpath : P.copy c.stamp f data ∉ s.loader.cache.map (·.1)) :
    c.env.fs.openPlugin f = .err ∧ ∃ r, (s.machines j).running = some r ∧ ∀ d, r.res ≠ .ok d := by
  have herr : c.env.fs.openPlugin f = .err := by
    generalize hro : c.env.fs.openPlugin f = ro at ho
    cases ho with
    | again hm => exact absurd (List.mem_map.mpr ⟨_, hm, rfl⟩) hpath
    | failedBefore hm => rfl
    | invalid _ _ => rfl
    | alreadyLoaded _ _ _ => rfl
    | incompatible _ _ _ _ => rfl
    | loads _ hp' hnl _ _ => rw [hp] at hp'; cases hp'; exact absurd hloaded hnl
  refine ⟨herr, ?_⟩
  obtain ⟨r, rest, q1, q2, q3⟩ := nextAct_some hn
  refine ⟨r, q1, ?_⟩
  intro d hr
  obtain ⟨c', hc', hlive⟩ := h.inv.run j r q1
  rw [hc] at hc'; cases hc'
  obtain ⟨done, k, m0, h1, h2, h3, h4, _⟩ := hlive.plan
  obtain ⟨syms, code, himg⟩ := opened_image (hcfg j) h1 c.env h2 (by rw [← h4]; exact hr) (f := f) (by rw [h3, q3]; simp)
  rw [herr] at himg; cases himg

end

/-! ### Examples: two swappers on one directory -/

namespace Demo

attribute [local instance] rt

/-- A process with two swappers. -/
structure Two where
  m : Bool → Machine
  c : Bool → Option LoadCtx
  l : Loader
  uses : List Use
  loads : List (Civil × Option Str)

def num : Bool → Nat
  | false => 0
  | true => 1

def spread {α : Type} (f : Bool → α) (d : α) : Nat → α
  | 0 => f false
  | 1 => f true
  | _ => d

def put {α : Type} (f : Bool → α) (b : Bool) (a : α) : Bool → α :=
  match b with
  | false => let x := f true; fun b => match b with | false => a | true => x
  | true => let x := f false; fun b => match b with | true => a | false => x

theorem spread_put {α : Type} (f : Bool → α) (d : α) (b : Bool) (a : α) : spread (put f b a) d = setAt (spread f d) (num b) a := by
  funext n
  cases b <;> rcases n with _ | _ | n <;> simp [spread, put, setAt, num]

def Two.procs (t : Two) : Procs := ⟨spread t.m .init, spread t.c none, t.l, t.uses, t.loads⟩

theorem spread_num {α : Type} (f : Bool → α) (d : α) (b : Bool) : spread f d (num b) = f b := by cases b <;> rfl

def Two.start : Two := ⟨fun _ => .init, fun _ => none, ⟨[]⟩, [], []⟩

/-- The loader after an opening that succeeds. -/
def opened (l : Loader) (path : Str) (b : Build) : Option Loader :=
  match l.cache.lookup path with
  | some (some _) => some l
  | some none => none
  | none => match b.pluginPath with
    | none => none
    | some p => if p ∈ l.loaded then none else if b.compatible then some ⟨(path, some p) :: l.cache⟩ else none

def imageOf : OpenRes → Option ((Str → Option GoType) × Code)
  | .image s c => some (s, c)
  | _ => none

theorem opened_opens {l l' : Loader} {path : Str} {b : Build} {r : OpenRes} (h : opened l path b = some l') (hr : (imageOf r).isSome = true) : Opens l path b r l' := by
  cases r with
  | err => cases hr
  | panics => cases hr
  | image syms code =>
    unfold opened at h
    cases hl : l.cache.lookup path with
    | some o =>
      rw [hl] at h
      cases o with
      | none => cases h
      | some p => cases h; exact .again (cache_of_lookup hl)
    | none =>
      rw [hl] at h
      have hn : path ∉ l.cache.map (·.1) := by
        intro hm
        obtain ⟨e, he, hp⟩ := List.mem_map.mp hm
        rw [List.lookup_eq_none_iff] at hl
        have := hl e he
        simp [hp] at this
      cases hp : b.pluginPath with
      | none => rw [hp] at h; cases h
      | some p =>
        rw [hp] at h
        simp only at h
        split at h
        · cases h
        · split at h
          · cases h; exact .loads hn hp ‹_› ‹_› (by intro he; cases he)
          · cases h

/-- A step of swapper `b`, with the same options for both. -/
def Two.exec (t : Two) (b : Bool) (stamp : Civil) : Label → Option Two
  | .call k env => if refused cfg k then none else
      match (t.m b).step cfg (.call k env) with
      | none => none
      | some m' => some { t with m := put t.m b m', c := put t.c b (some ⟨t.loads.length, env, stamp, none⟩), loads := t.loads ++ [(stamp, env.dir.map (·.1))] }
  | .act =>
      match (t.m b).step cfg .act with
      | none => none
      | some m' =>
        match (t.m b).nextAct with
        | some (.openPlugin f) =>
          match t.c b with
          | none => none
          | some c => match c.env.fs.readFile f with
            | none => none
            | some d => if (imageOf (c.env.fs.openPlugin f)).isSome then
                match opened t.l (proc.copy c.stamp f d) (proc.build d) with
                | none => none
                | some l' => some { t with m := put t.m b m', c := put t.c b (some { c with opened := (l'.package (proc.copy c.stamp f d)).map (fun p => (f, p)) }), l := l' }
              else none
        | some (.callReloadable i) =>
          match t.c b with
          | none => none
          | some c => match c.opened with
            | none => none
            | some (f, p) => some { t with m := put t.m b m', uses := t.uses ++ [⟨c.load, f, num b, i, p⟩] }
        | _ => some { t with m := put t.m b m' }
  | lab => match (t.m b).step cfg lab with
    | none => none
    | some m' => some { t with m := put t.m b m' }

/-- A label with a time and directory that are as they should be. -/
def Fine (stamp : Civil) (lab : Label) : Prop := ∀ k env, lab = .call k env → stamp.Valid ∧ ∀ dir entries, env.dir = some (dir, entries) → CleanDir dir ∧ RealEntries entries

theorem exec_sound {t t' : Two} {b : Bool} {stamp : Civil} {lab : Label} (hf : Fine stamp lab) (h : t.exec b stamp lab = some t') : PStep (fun _ => cfg) proc t.procs t'.procs := by
  have hm : t.procs.machines (num b) = t.m b := spread_num ..
  have hc : t.procs.ctx (num b) = t.c b := spread_num ..
  have other : ∀ m', (∀ k env, lab ≠ .call k env) → (t.m b).step cfg lab = some m' →
      (lab = .act → (∀ f, (t.m b).nextAct ≠ some (.openPlugin f)) ∧ ∀ i, (t.m b).nextAct ≠ some (.callReloadable i)) →
      PStep (fun _ => cfg) proc t.procs (Two.procs { t with m := put t.m b m' }) := by
    intro m' hno hs hg
    have := PStep.other (cfg := fun _ => cfg) (P := proc) (s := t.procs) (num b) lab m' (fun k env he => absurd he (hno k env))
      (fun he => ⟨by rw [hm]; exact (hg he).1, fun i hi => by rw [hm] at hi; exact absurd hi ((hg he).2 i)⟩) (by rw [hm]; exact hs)
    unfold Two.procs at this ⊢
    simp only [spread_put]
    exact this
  cases lab with
  | call k env =>
    unfold Two.exec at h
    simp only at h
    split at h
    · cases h
    rename_i href
    cases hs : (t.m b).step cfg (.call k env) with
    | none => rw [hs] at h; cases h
    | some m' =>
      rw [hs] at h
      cases h
      have := PStep.call (cfg := fun _ => cfg) (P := proc) (s := t.procs) (num b) k env stamp m' (by rw [hm]; exact hs) (by simpa using href) (hf k env rfl).1 (hf k env rfl).2
      unfold Two.procs at this ⊢
      simp only [spread_put]
      exact this
  | act =>
    unfold Two.exec at h
    simp only at h
    cases hs : (t.m b).step cfg .act with
    | none => rw [hs] at h; cases h
    | some m' =>
      rw [hs] at h
      simp only at h
      split at h
      · rename_i f hn
        cases hcb : t.c b with
        | none => rw [hcb] at h; cases h
        | some c =>
          rw [hcb] at h
          simp only at h
          cases hd : c.env.fs.readFile f with
          | none => rw [hd] at h; cases h
          | some d =>
            rw [hd] at h
            simp only at h
            split at h
            · rename_i himg
              cases ho : opened t.l (proc.copy c.stamp f d) (proc.build d) with
              | none => rw [ho] at h; cases h
              | some l' =>
                rw [ho] at h
                cases h
                have := PStep.opens (cfg := fun _ => cfg) (P := proc) (s := t.procs) (num b) c f d l' m' (by rw [hc]; exact hcb) (by rw [hm]; exact hn) hd (opened_opens ho himg) (by rw [hm]; exact hs)
                unfold Two.procs at this ⊢
                simp only [spread_put]
                exact this
            · cases h
      · rename_i i hn
        cases hcb : t.c b with
        | none => rw [hcb] at h; cases h
        | some c =>
          rw [hcb] at h
          simp only at h
          cases hop : c.opened with
          | none => rw [hop] at h; cases h
          | some fp =>
            obtain ⟨f, p⟩ := fp
            rw [hop] at h
            cases h
            have := PStep.begins (cfg := fun _ => cfg) (P := proc) (s := t.procs) (num b) c i f p m' (by rw [hc]; exact hcb) (by rw [hm]; exact hn) hop (by rw [hm]; exact hs)
            unfold Two.procs at this ⊢
            simp only [spread_put]
            exact this
      · rename_i h1 h2
        cases h
        exact other m' (by intro k env he; cases he) hs (fun _ => ⟨h1, h2⟩)
  | _ =>
    unfold Two.exec at h
    simp only at h
    split at h
    · cases h
    · rename_i m' hs
      cases h
      exact other m' (by intro k env he; cases he) hs (by intro he; cases he)

def execAll (t : Two) : List (Bool × Civil × Label) → Option Two
  | [] => some t
  | (b, st, lab) :: r => match t.exec b st lab with
    | none => none
    | some t' => execAll t' r

theorem execAll_sound {t t' : Two} {ls : List (Bool × Civil × Label)} (hf : ∀ e ∈ ls, Fine e.2.1 e.2.2) (ht : PSteps (fun _ => cfg) proc t.procs) (h : execAll t ls = some t') : PSteps (fun _ => cfg) proc t'.procs := by
  induction ls generalizing t with
  | nil => cases h; exact ht
  | cons e r ih =>
    obtain ⟨b, st, lab⟩ := e
    unfold execAll at h
    cases hs : t.exec b st lab with
    | none => rw [hs] at h; cases h
    | some t1 =>
      rw [hs] at h
      exact ih (fun e he => hf e (by simp [he])) (.step ht (exec_sound (hf (b, st, lab) (by simp)) hs)) h

/-- Two loads that run at the same time, one step of each in turn. -/
def bothLoad (a b : Env) (st st' : Civil) : List (Bool × Civil × Label) :=
  [(false, st, .call .load a), (true, st', .call .load b)] ++ (List.replicate 20 [(false, st, Label.act), (true, st', .act)]).flatten ++ [(false, st, .ret), (true, st', .ret)]

/-- Two swappers load different builds of the same two plugins in different seconds. -/
def apart : Option Two := execAll .start (bothLoad env1 env8 stampA stampB)

/-- Two swappers load the same files of the same directory in the same second. -/
def clash : Option Two := execAll .start (bothLoad env1 env1 stampA stampA)

theorem fine_both {a b : Env} {st st' : Civil} (h : st.Valid) (h' : st'.Valid) (ha : a.dir = some ("/p".toList, both.map (fun n => ⟨n, false⟩))) (hb : b.dir = some ("/p".toList, both.map (fun n => ⟨n, false⟩))) :
    ∀ e ∈ bothLoad a b st st', Fine e.2.1 e.2.2 := by
  intro e he k env hl
  unfold bothLoad at he
  rcases List.mem_append.mp he with he1 | he1
  · rcases List.mem_append.mp he1 with he2 | he2
    · rcases List.mem_cons.mp he2 with e1 | e1
      · subst e1; cases hl; refine ⟨h, ?_⟩; intro dir es hd; rw [ha] at hd; cases hd; exact ⟨clean_p, real_both⟩
      · rw [List.mem_singleton] at e1; subst e1; cases hl; refine ⟨h', ?_⟩; intro dir es hd; rw [hb] at hd; cases hd; exact ⟨clean_p, real_both⟩
    · obtain ⟨l, hl1, he3⟩ := List.mem_flatten.mp he2
      have hl2 := List.eq_of_mem_replicate hl1
      subst hl2
      rcases List.mem_cons.mp he3 with e1 | e1
      · subst e1; cases hl
      · rw [List.mem_singleton] at e1; subst e1; cases hl
  · rcases List.mem_cons.mp he1 with e1 | e1
    · subst e1; cases hl
    · rw [List.mem_singleton] at e1; subst e1; cases hl

theorem start_procs : PSteps (fun _ => cfg) proc Two.start.procs := by
  have h : Two.start.procs = Procs.init := by
    unfold Two.start Two.procs Procs.init
    have e1 : spread (fun _ : Bool => Machine.init) Machine.init = fun _ => Machine.init := by
      funext n; unfold spread; split <;> (try split) <;> rfl
    have e2 : spread (fun _ : Bool => (none : Option LoadCtx)) none = fun _ => none := by
      funext n; unfold spread; split <;> (try split) <;> rfl
    rw [e1, e2]
  rw [h]
  exact .init

/-- What can be seen of a process. -/
def shown (t : Two) : List (Nat × Nat × Nat × Str) × Bool × Bool := (t.uses.map (fun u => (u.load, u.swapper, u.inst, u.pkg)), (t.m false).current.isSome, (t.m true).current.isSome)

set_option synthInstance.maxSize 1000 in
theorem apart_shown : apart.map shown = some ([(0, 0, 1, "20".toList), (1, 1, 1, "23".toList), (0, 0, 2, "10".toList), (1, 1, 2, "11".toList)], true, true) := by decide +kernel

set_option synthInstance.maxSize 1000 in
theorem clash_shown : clash.map shown = some ([(0, 0, 1, "20".toList), (1, 1, 1, "20".toList), (0, 0, 2, "10".toList), (1, 1, 2, "10".toList)], true, true) := by decide +kernel

/-- The conditions of C84 are met by two swappers whose loads, of different builds, overlap from the first step to the last: both have a current manager at the end, and four packages are in use. -/
example : ∃ s : Procs, PSteps (fun _ => cfg) proc s ∧ ApartLoads s.loads ∧ s.uses.length = 4 ∧ (s.machines 0).current.isSome ∧ (s.machines 1).current.isSome ∧
    Hook.reloadable ∈ (s.machines 1).hooksOf 2 := by
  have h := apart_shown
  cases ht : apart with
  | none => rw [ht] at h; cases h
  | some t =>
    have h2 : apart.map (fun t => decide (t.loads.map (fun e => (e.1.sec, e.2)) = [(stampA.sec, some "/p".toList), (stampB.sec, some "/p".toList)] ∧ Hook.reloadable ∈ (t.m true).hooksOf 2)) = some true := by decide +kernel
    rw [ht] at h h2
    simp only [Option.map_some, Option.some.injEq, decide_eq_true_eq] at h h2
    unfold shown at h
    simp only [Prod.mk.injEq] at h
    refine ⟨t.procs, execAll_sound (fine_both stampA_valid stampB_valid rfl rfl) start_procs ht, ?_, ?_, h.2.1, h.2.2, h2.2⟩
    · change ApartLoads t.loads
      obtain ⟨h3, -⟩ := h2
      have hp : (t.loads.map (fun e => (e.1.sec, e.2))).Pairwise (fun a b => a.1 ≠ b.1) := by
        rw [h3]
        exact .cons (by intro x hx; rw [List.mem_singleton] at hx; subst hx; decide) (.cons (by simp) .nil)
      rw [List.pairwise_map] at hp
      exact hp.imp (fun hne hs => hne hs.1.sec)
    · change t.uses.length = 4
      have := congrArg List.length h.1
      simpa using this

/-- The condition is necessary: two swappers that load one directory in the same second get the very same packages for their instances, and neither is told. -/
theorem C84_violated_same_second : ∃ (s : Procs) (e e' : Use), PSteps (fun _ => cfg) proc s ∧ e ∈ s.uses ∧ e' ∈ s.uses ∧ e.pkg = e'.pkg ∧ e.swapper ≠ e'.swapper ∧ (s.machines e.swapper).current.isSome ∧
    (s.machines e'.swapper).current.isSome := by
  have h := clash_shown
  cases ht : clash with
  | none => rw [ht] at h; cases h
  | some t =>
    rw [ht] at h
    simp only [Option.map_some, Option.some.injEq] at h
    unfold shown at h
    simp only [Prod.mk.injEq] at h
    obtain ⟨h1, h2, h3⟩ := h
    have hmem : ∀ x ∈ [(0, 0, 1, "20".toList), (1, 1, 1, "20".toList), (0, 0, 2, "10".toList), (1, 1, 2, "10".toList)], ∃ u ∈ t.uses, (u.load, u.swapper, u.inst, u.pkg) = x := by
      intro x hx
      rw [← h1] at hx
      obtain ⟨u, hu, he⟩ := List.mem_map.mp hx
      exact ⟨u, hu, he⟩
    obtain ⟨e, he, hee⟩ := hmem (0, 0, 1, "20".toList) (by simp)
    obtain ⟨e', he', hee'⟩ := hmem (1, 1, 1, "20".toList) (by simp)
    simp only [Prod.mk.injEq] at hee hee'
    refine ⟨t.procs, e, e', execAll_sound (fine_both stampA_valid stampA_valid rfl rfl) start_procs ht, he, he', by rw [hee.2.2.2, hee'.2.2.2], by rw [hee.2.1, hee'.2.1]; decide, ?_, ?_⟩
    · rw [hee.2.1]; exact h2
    · rw [hee'.2.1]; exact h3

end Demo

end Hotswap
