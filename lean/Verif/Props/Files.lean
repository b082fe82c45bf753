import Verif.Proofs.Current
import Verif.Props.Phases

/-!
# What a load does with the files of the plugin directory: C14, C15, C16, C17, C26, C39

`listedFiles cfg absDir entries` is the list of files a dynamic load considers; C30 (in `Props/Selection.lean`) says which these are.
-/

namespace Hotswap

section
variable [GoRuntime]

/-- The plugin that the current manager has for the file. -/
def previous (m : Machine) (f : Str) : Option Plugin := m.current.bind (fun om => om.findPlugin (pluginName f))

/-- The plugin's `Reloadable()` returned false. -/
def NotReloadable (p : Plugin) : Prop := p.code.reloadable = .ret false

/-- `p` is the instance `old`, kept by a reload: nothing changed but the two fields that say so. -/
def KeptCopy (old p : Plugin) : Prop := p = { old with unchanged := p.unchanged, note := p.note }

/-! ### helper lemmas -/

/-- A publishing call in dynamic mode. -/
theorem View.dynamic {cfg : Config} {env : Env} {k : Kind} {old : Option Manager} {n0 : Nat} {p : Plan} (h : View cfg env k old n0 p) (hst : cfg.static = none)
    {pm : Manager} (hp : Act.publish pm ∈ p.acts) :
    ∃ absDir entries s0 s1 s d, env.dir = some (absDir, entries) ∧ whitelistError cfg.whitelist (qualifying cfg.whitelist entries) = none ∧
      Created cfg env n0 s0 ∧ LoadDone old n0 env.it env.fs (listedFiles cfg absDir entries) env.data s0 s1 s ∧
      buildDetails s.pm (listedFiles cfg absDir entries) .empty = some d ∧ p.res = .ok d ∧ pm = s.pm ∧ p.built = s.pm := by
  have hk : refused cfg k = false := by cases k <;> simp [refused, hst]
  obtain ⟨hb, s0', s1', s', d', hs⟩ := h.published hk hp
  cases h with
  | listErr e dyn why acts res next built => rw [acts] at hp; simp at hp
  | empty absDir entries dyn dir wl none acts res next built => rw [acts] at hp; cases k <;> simp [countActs] at hp
  | escaped ext panics acts res next built => rw [acts] at hp; simp at hp
  | staticMissing sps e st kl sel acts res next built => rw [hst] at st; cases st
  | staticErr sps sel st => rw [hst] at st; cases st
  | staticCb sps sel st => rw [hst] at st; cases st
  | staticOk sps sel st => rw [hst] at st; cases st
  | dynErr absDir entries dyn dir wl some s0 sb f cr failed body acts res next built => rw [hs.res] at res; cases res
  | dynCb absDir entries dyn dir wl some s0 s1 s cr done cbs n o rest split bad good acts res next built => rw [hs.res] at res; cases res
  | dynOk absDir entries dyn dir wl some s0 s1 s d cr done good details acts res next built =>
    exact ⟨absDir, entries, s0, s1, s, d, dir, wl, cr, done, details, res, by rw [hb, built], built⟩

theorem faithful_notReloadable {p : Plugin} (h : Faithful p) : NotReloadable p ↔ p.reloadable = false := by
  unfold NotReloadable
  rw [h.1]
  constructor
  · intro h; injection h
  · intro h; rw [h]

/-! ### C15 -/

/-- **C15.** After a successful load (one that publishes a manager), for every listed file: if the old manager had the plugin and it was not reloadable or the
file's digest is the same, the new manager has that very instance, otherwise identical; if not, the new manager has an instance that did not exist before, opened from this file,
with its name, digest and code. -/
theorem C15_kept_or_renewed {cfg : Config} (hcfg : cfg.OK) (hst : cfg.static = none) {m : Machine} (h : Reachable cfg m) (env : Env) {k : Kind} {pm : Manager}
    (hp : .publish pm ∈ (plan cfg env k m.current m.next).acts) {absDir : Str} {entries : List DirEntry} (hdir : env.dir = some (absDir, entries))
    {f : Str} (hf : f ∈ listedFiles cfg absDir entries) :
    ∃ data p, env.fs.readFile f = some data ∧ pm.findPlugin (pluginName f) = some p ∧
      (∀ old, previous m f = some old → NotReloadable old → KeptCopy old p ∧ p.note = .notReloadable) ∧
      (∀ old, previous m f = some old → ¬ NotReloadable old → old.sha = GoRuntime.sha1 data → KeptCopy old p ∧ p.note = .unchanged) ∧
      ((∀ old, previous m f = some old → ¬ NotReloadable old ∧ old.sha ≠ GoRuntime.sha1 data) →
        m.next ≤ p.inst ∧ p.note = .none ∧ p.name = pluginName f ∧ p.file = f ∧ p.sha = GoRuntime.sha1 data ∧
        ∃ syms, env.fs.openPlugin f = .image syms p.code ∧ p.syms = some syms) := by
  have hv := view hcfg h env k
  have hgood := sound_old hcfg h
  obtain ⟨absDir', entries', s0, s1, s, d, hd, _, cr, done, _, _, rfl, _⟩ := hv.dynamic hst hp
  rw [hdir] at hd; cases hd
  obtain ⟨data, p, hread, hget, hfate⟩ := done.stage1.fate f hf
  have hprev : ∀ om old, m.current = some om → om.pluginMap.get? (fileKey f) = some old → previous m f = some old ∧ Faithful old := by
    intro om old ho hg
    refine ⟨?_, (hgood om ho).faithful _ _ hg⟩
    unfold previous; rw [ho]; exact hg
  cases hfate with
  | notReloadable om old ho hk hr hpe =>
    obtain ⟨h1, h2⟩ := hprev om old ho hk
    have hkept := done.fin.frame.same.kept _ p hget (by rw [hpe])
    refine ⟨data, p, hread, hkept, ?_, ?_, ?_⟩
    · intro o ho' hn
      rw [h1] at ho'; cases ho'
      rw [hpe]; exact ⟨rfl, rfl⟩
    · intro o ho' hn
      rw [h1] at ho'; cases ho'
      exact absurd ((faithful_notReloadable h2).mpr hr) hn
    · intro hall
      exact absurd ((faithful_notReloadable h2).mpr hr) (hall _ h1).1
  | unchanged om old ho hk hr hs hpe =>
    obtain ⟨h1, h2⟩ := hprev om old ho hk
    have hkept := done.fin.frame.same.kept _ p hget (by rw [hpe])
    refine ⟨data, p, hread, hkept, ?_, ?_, ?_⟩
    · intro o ho' hn
      rw [h1] at ho'; cases ho'
      rw [faithful_notReloadable h2, hr] at hn; cases hn
    · intro o ho' hn _
      rw [h1] at ho'; cases ho'
      rw [hpe]; exact ⟨rfl, rfl⟩
    · intro hall
      exact absurd hs.symm (hall _ h1).2
  | renewed hno hb =>
    obtain ⟨dp, bd, hget'⟩ := done.fin.frame.same.get _ p hget
    refine ⟨data, _, hread, hget', ?_, ?_, ?_⟩
    · intro o ho' hn
      unfold previous at ho'
      obtain ⟨om, ho, hg⟩ := Option.bind_eq_some_iff.mp ho'
      have := (hno om o ho hg).1
      rw [faithful_notReloadable (hprev om o ho hg).2, this] at hn; cases hn
    · intro o ho' hn hs
      unfold previous at ho'
      obtain ⟨om, ho, hg⟩ := Option.bind_eq_some_iff.mp ho'
      exact absurd hs.symm (hno om o ho hg).2
    · intro _
      obtain ⟨syms, hi, hsy, _⟩ := hb.image
      refine ⟨?_, hb.note, hb.name, hb.file, hb.sha, syms, hi, hsy⟩
      rcases done.body.origin _ _ hget' with ⟨hu, _⟩ | ⟨_, hi⟩
      · have := hb.changed; simp only at hu; rw [this] at hu; cases hu
      · exact hi

/-- **C15.** After a successful load the manager has exactly one plugin per listed file and no others. -/
theorem C15_exactly_listed {cfg : Config} (hcfg : cfg.OK) (hst : cfg.static = none) {m : Machine} (h : Reachable cfg m) (env : Env) {k : Kind} {pm : Manager}
    (hp : .publish pm ∈ (plan cfg env k m.current m.next).acts) :
    ∃ absDir entries, env.dir = some (absDir, entries) ∧
      (pm.plugins.map (fun p => name2key p.name)).Perm ((listedFiles cfg absDir entries).map (fun f => name2key (pluginName f))) := by
  have hv := view hcfg h env k
  obtain ⟨absDir, entries, s0, s1, s, d, hd, _, cr, done, _, _, rfl, _⟩ := hv.dynamic hst hp
  refine ⟨absDir, entries, hd, ?_⟩
  have h1 := done.good.ordered.map (fun p => name2key p.name)
  have h2 : s.pm.pluginMap.vals.map (fun p => name2key p.name) = s.pm.pluginMap.keys := by
    unfold GoMap.vals GoMap.keys
    rw [List.map_map]
    refine List.map_congr_left ?_
    intro e he
    exact done.good.keyed e.1 e.2 (GoMap.get?_eq_some.mpr he)
  rw [h2] at h1
  refine h1.trans ?_
  refine (List.perm_ext_iff_of_nodup (GoMap.keys_nodup _) done.stage1.nodup).mpr ?_
  intro key
  rw [done.fin.frame.same.keys, GoMap.mem_keys, List.mem_map]
  constructor
  · rintro ⟨p, hp⟩
    exact done.stage1.only key p hp
  · rintro ⟨f, hf, rfl⟩
    obtain ⟨_, p, _, hp, _⟩ := done.stage1.fate f hf
    exact ⟨p, hp⟩

/-! ### C14 -/

/-- **C14.** A plugin of the current manager whose `Reloadable()` returned false and whose file is still listed is, after a successful reload, the very
same instance, whatever the file contains now, and `Details` reports it as "not reloadable". -/
theorem C14_not_reloadable_kept {cfg : Config} (hcfg : cfg.OK) (hst : cfg.static = none) {m : Machine} (h : Reachable cfg m) (env : Env) {k : Kind} {pm : Manager}
    (hp : .publish pm ∈ (plan cfg env k m.current m.next).acts) {absDir : Str} {entries : List DirEntry} (hdir : env.dir = some (absDir, entries))
    {f : Str} (hf : f ∈ listedFiles cfg absDir entries) {old : Plugin} (hold : previous m f = some old) (hnr : NotReloadable old) :
    ∃ p, pm.findPlugin (pluginName f) = some p ∧ p.inst = old.inst ∧ KeptCopy old p ∧ p.note = .notReloadable := by
  obtain ⟨data, p, _, h1, h2, _⟩ := C15_kept_or_renewed hcfg hst h env hp hdir hf
  obtain ⟨h3, h4⟩ := h2 old hold hnr
  exact ⟨p, h1, by rw [h3], h3, h4⟩

/-! ### C16 -/

/-- In dynamic mode the plugins of a manager are named after their files. -/
theorem file_named {cfg : Config} (hcfg : cfg.OK) (hst : cfg.static = none) {m : Machine} (h : Reachable cfg m) (env : Env) {k : Kind} {pm : Manager}
    (hp : .publish pm ∈ (plan cfg env k m.current m.next).acts) : ∀ key p, pm.pluginMap.get? key = some p → p.name = pluginName p.file := by
  have hk : refused cfg k = false := by cases k <;> simp [refused, hst]
  refine publish_induction (P := fun pm => ∀ key p, pm.pluginMap.get? key = some p → p.name = pluginName p.file) ?_ h env hk hp
  intro m env k pm h hk ih hp key p hkp
  have hv := view hcfg h env k
  obtain ⟨absDir, entries, s0, s1, s, d, hd, _, cr, done, _, _, rfl, _⟩ := hv.dynamic hst hp
  obtain ⟨q, dp, bd, hq, rfl, hun⟩ := done.fin.frame.same.get' hkp
  obtain ⟨f, hf, rfl⟩ := done.stage1.only key q hq
  obtain ⟨data, q', _, hq', hfate⟩ := done.stage1.fate f hf
  rw [hq] at hq'; cases hq'
  cases hfate with
  | notReloadable om old ho hk' hr hpe => subst hpe; exact ih om ho _ old hk'
  | unchanged om old ho hk' hr hs hpe => subst hpe; exact ih om ho _ old hk'
  | renewed hno hb => simp only; rw [hb.name, hb.file]

/-- What `Details` says about a plugin of the new manager: new plugins are "ok", kept ones are "not reloadable" or "unchanged". -/
def statusSpec (m : Machine) (p : Plugin) : Str :=
  if isNew m.current p then "ok".toList
  else if p.reloadable then "unchanged".toList
  else "not reloadable".toList

theorem statusOf_note (p : Plugin) : statusOf p = match p.note with
    | .none => "ok".toList
    | .notReloadable => "not reloadable".toList
    | .unchanged => "unchanged".toList
    | .ok => "ok".toList := by
  unfold statusOf
  cases p.note <;> rfl

theorem status_eq {m : Machine} {fs : FS} {f : Str} {data : Nat} {q : Plugin} {dp : List Str} {bd : List Binding} (h : FileFate fs m.current f data q)
    (hnew : isNew m.current { q with deps := dp, bound := bd } = !q.unchanged) :
    statusOf { q with deps := dp, bound := bd } = statusSpec m { q with deps := dp, bound := bd } := by
  unfold statusSpec
  rw [hnew, statusOf_note]
  cases h with
  | notReloadable om old ho hk' hr hpe =>
    subst hpe
    simp only [hr]
    rfl
  | unchanged om old ho hk' hr hs hpe =>
    subst hpe
    simp only [hr]
    rfl
  | renewed hno hb =>
    simp only [hb.note, hb.changed]
    rfl

/-- **C16.** On success `Details` has exactly one entry per plugin of the new manager, under the plugin's `File`, and its value says what happened to the plugin:
`ok` for a new instance, `not reloadable` or `unchanged` for a kept one. -/
theorem C16_details {cfg : Config} (hcfg : cfg.OK) (hst : cfg.static = none) {m : Machine} (h : Reachable cfg m) (env : Env) {k : Kind} {pm : Manager}
    (hp : .publish pm ∈ (plan cfg env k m.current m.next).acts) :
    ∃ d, (plan cfg env k m.current m.next).res = .ok d ∧
      (∀ p ∈ pm.plugins, d.get? p.file = some (statusSpec m p)) ∧
      (∀ file status, d.get? file = some status → ∃ p ∈ pm.plugins, p.file = file) ∧
      (pm.plugins.map (·.file)).Nodup := by
  have hv := view hcfg h env k
  have hgood := sound_old hcfg h
  have hnamed := file_named hcfg hst h env hp
  obtain ⟨absDir, entries, s0, s1, s, d, hd, _, cr, done, hdet, hres, rfl, _⟩ := hv.dynamic hst hp
  obtain ⟨d', hd', h1, h2, _⟩ := buildDetails_spec (d0 := .empty) done.find
  rw [hdet] at hd'; cases hd'
  have hmem : ∀ p ∈ s.pm.plugins, s.pm.pluginMap.get? (name2key p.name) = some p := by
    intro p hp
    obtain ⟨key, hk⟩ := GoMap.mem_vals.mp (done.good.ordered.mem_iff.mp hp)
    have := done.good.keyed key p hk
    rw [this]; exact hk
  have huniq : ∀ p ∈ s.pm.plugins, ∀ q ∈ s.pm.plugins, p.file = q.file → p = q := by
    intro p hp q hq he
    have e1 := hnamed _ _ (hmem p hp)
    have e2 := hnamed _ _ (hmem q hq)
    have : p.name = q.name := by rw [e1, e2, he]
    have h3 := hmem p hp
    rw [this, hmem q hq] at h3
    cases h3; rfl
  have hnd : s.pm.plugins.Nodup := by
    have h1 : s.pm.pluginMap.vals.Nodup := List.Nodup.of_map (fun p : Plugin => p.inst) done.good.nodup
    exact done.good.ordered.symm.nodup h1
  have hsome : ∀ file status, d.get? file = some status → ∃ p ∈ s.pm.plugins, p.file = file ∧ status = statusOf p := by
    intro file status hfs
    rcases h1 file status hfs with ⟨f, hf, p, hfp, rfl, rfl⟩ | h
    · exact ⟨p, done.good.ordered.mem_iff.mpr (GoMap.mem_vals.mpr ⟨_, hfp⟩), rfl, rfl⟩
    · cases h
  refine ⟨d, hres, ?_, ?_, ?_⟩
  · intro p hp
    have hget := hmem p hp
    obtain ⟨q, dp, bd, hq, hpq, hun⟩ := done.fin.frame.same.get' hget
    obtain ⟨f, hf, hkey⟩ := done.stage1.only _ q hq
    obtain ⟨st, hst'⟩ := h2 f hf p (by unfold Manager.findPlugin; rw [show name2key (pluginName f) = name2key p.name from hkey]; exact hget)
    obtain ⟨p', hp', hfile, rfl⟩ := hsome _ _ hst'
    have := huniq p' hp' p hp hfile
    subst this
    rw [hst']
    congr 1
    obtain ⟨data, q', _, hq', hfate⟩ := done.stage1.fate f hf
    rw [hkey, hq] at hq'
    injection hq' with hq'
    subst hq'
    rw [hpq]
    exact status_eq hfate (isNew_iff hgood done.body.origin (by rw [← hpq]; exact hget))
  · intro file status hfs
    obtain ⟨p, hp, he, _⟩ := hsome file status hfs
    exact ⟨p, hp, he⟩
  · rw [List.nodup_map_iff_inj_on hnd]
    intro p hp q hq he
    exact huniq p hp q hq he

/-! ### C17 -/

/-- **C17.** If two listed files have the same plugin name up to case, the call does not succeed, no plugin is opened and no hook is called: it performs no action at all. -/
theorem C17_duplicates_rejected {cfg : Config} (hcfg : cfg.OK) (hst : cfg.static = none) {m : Machine} (h : Reachable cfg m) (env : Env) (k : Kind)
    {absDir : Str} {entries : List DirEntry} (hdir : env.dir = some (absDir, entries))
    (hdup : ¬ ((listedFiles cfg absDir entries).map (fun f => name2key (pluginName f))).Nodup) :
    (plan cfg env k m.current m.next).acts = [] ∧ ∀ d, (plan cfg env k m.current m.next).res ≠ .ok d := by
  have hv := view hcfg h env k
  generalize plan cfg env k m.current m.next = p at hv ⊢
  cases hv with
  | listErr e dyn why acts res next built => exact ⟨acts, by rw [res]; simp⟩
  | empty absDir' entries' dyn dir wl none acts res next built =>
    rw [hdir] at dir; cases dir
    rw [none] at hdup; exact absurd List.nodup_nil hdup
  | escaped ext panics acts res next built => exact ⟨acts, by rw [res]; simp⟩
  | staticMissing sps e st => rw [hst] at st; cases st
  | staticErr sps sel st => rw [hst] at st; cases st
  | staticCb sps sel st => rw [hst] at st; cases st
  | staticOk sps sel st => rw [hst] at st; cases st
  | dynErr absDir' entries' dyn dir wl some s0 sb f cr failed body acts res next built =>
    rw [hdir] at dir; cases dir
    cases failed with
    | early base why =>
      refine ⟨?_, by rw [res]; simp⟩
      have hn : ∀ {P}, ((listedFiles cfg absDir entries).map fileKey).Nodup ∧ P → False := fun h => hdup h.1
      have hacts : sb.acts = [] ∧ sb.pm.pluginMap.vals = [] := by
        have ha : sb.acts = [] := by
          cases f with
          | inl e =>
            cases e with
            | duplicateName k => exact why.1
            | readFile f => exact (hn why).elim
            | loading n e => exact (hn why).elim
            | panicked c p => exact (hn why).elim
            | _ => exact why.elim
          | inr q => exact why.elim
        refine ⟨ha, ?_⟩
        have := base.acq
        rw [ha] at this
        have h0 : sb.pm.insts = [] := by simpa [acquired] using this
        simpa [Manager.insts] using h0
      rw [acts, hacts.1]
      have ho : sb.pm.ordered = [] := by rw [base.pm]; exact cr.ordered
      have hr := GoMap.rangeKV_vals_perm env.it .free sb.pm.pluginMap
      rw [hacts.2] at hr
      have hr' : (sb.pm.pluginMap.rangeKV env.it .free).map Prod.snd = [] := by simpa using hr
      simp only [cleanupActs, freeOrder, ho, if_true, hr', List.map_nil, List.append_nil]
    | late s1 done why => exact absurd done.nodup hdup
  | dynCb absDir' entries' dyn dir wl some s0 s1 s cr done cbs n o rest split bad good acts res next built =>
    rw [hdir] at dir; cases dir; exact absurd done.stage1.nodup hdup
  | dynOk absDir' entries' dyn dir wl some s0 s1 s d cr done good details acts res next built =>
    rw [hdir] at dir; cases dir; exact absurd done.stage1.nodup hdup

/-- **C17.** The name given by the duplicate-name error is the (lower-cased) name of at least two of the listed files. -/
theorem C17_error_is_true {cfg : Config} (hcfg : cfg.OK) {m : Machine} (h : Reachable cfg m) (env : Env) (k : Kind) {key : Str}
    (hr : (plan cfg env k m.current m.next).res = .err (.duplicateName key)) :
    ∃ absDir entries, env.dir = some (absDir, entries) ∧
      1 < ((listedFiles cfg absDir entries).map (fun f => name2key (pluginName f))).count key := by
  have hv := view hcfg h env k
  generalize plan cfg env k m.current m.next = p at hv hr ⊢
  cases hv.err hr with
  | list acts what => rcases what with h | ⟨l, h⟩ | ⟨n, h⟩ <;> cases h
  | callback what => cases what
  | early absDir entries dyn dir s0 sb f cr base why what acts built =>
    refine ⟨absDir, entries, dir, ?_⟩
    cases f with
    | inl e => simp only [errOf] at what; subst what; exact why.2
    | inr q => simp [errOf] at what
  | earlyStatic sps sel st hsel s0 sb f cr base why what acts built =>
    cases f with
    | inl e => simp only [errOf] at what; subst what; exact why.elim
    | inr q => simp [errOf] at what
  | late s0 s1 sb f cr keyed why what acts built body =>
    cases f with
    | inl e => simp only [errOf] at what; subst what; exact why.fail.elim
    | inr q => simp [errOf] at what

/-! ### C26 -/

/-- **C26.** `FindPlugin` does not distinguish names that are equal up to case. -/
theorem C26_case_insensitive (pm : Manager) {a b : Str} (h : a.map GoRuntime.toLower = b.map GoRuntime.toLower) : pm.findPlugin a = pm.findPlugin b := by
  unfold Manager.findPlugin name2key
  rw [h]

/-- **C26.** After a successful load `FindPlugin` finds the plugin of every listed file, under its name in any spelling, and what it finds has this name up to case. -/
theorem C26_total {cfg : Config} (hcfg : cfg.OK) (hst : cfg.static = none) {m : Machine} (h : Reachable cfg m) (env : Env) {k : Kind} {pm : Manager}
    (hp : .publish pm ∈ (plan cfg env k m.current m.next).acts) {absDir : Str} {entries : List DirEntry} (hdir : env.dir = some (absDir, entries))
    {f : Str} (hf : f ∈ listedFiles cfg absDir entries) {spelling : Str} (hs : spelling.map GoRuntime.toLower = (pluginName f).map GoRuntime.toLower) :
    ∃ p, pm.findPlugin spelling = some p ∧ p.name.map GoRuntime.toLower = spelling.map GoRuntime.toLower := by
  obtain ⟨_, p, _, h1, _⟩ := C15_kept_or_renewed hcfg hst h env hp hdir hf
  rw [C26_case_insensitive pm hs]
  refine ⟨p, h1, ?_⟩
  obtain ⟨hb, s0, s1, s, d, hs'⟩ := (view hcfg h env k).published (by cases k <;> simp [refused, hst]) hp
  rw [hs'.built] at hb
  subst hb
  have := hs'.good.keyed _ p h1
  rw [hs]; exact this

/-! ### C39 -/

/-- **C39.** If no file qualifies (and the whitelist is satisfied), the call succeeds with empty `Details` and does nothing at all, except that a reload is
counted. -/
theorem C39_empty_directory {cfg : Config} (hst : cfg.static = none) (m : Machine) (env : Env) (k : Kind)
    {absDir : Str} {entries : List DirEntry} (hdir : env.dir = some (absDir, entries)) (hwl : cfg.whitelist = [])
    (hnone : ∀ e ∈ entries, e.isDir = true ∨ ¬ fileNameExt <:+ e.name) :
    (plan cfg env k m.current m.next).res = .ok .empty ∧
    (plan cfg env k m.current m.next).acts = (match k with | .load => [] | .reload _ => [.count]) ∧
    (plan cfg env k m.current m.next).next = m.next := by
  have hq : qualifying cfg.whitelist entries = [] := by
    unfold qualifying
    rw [List.map_eq_nil_iff, List.filter_eq_nil_iff]
    intro e he
    rcases hnone e he with h | h
    · simp [h]
    · have : Str.hasSuffix e.name fileNameExt = false := by
        unfold Str.hasSuffix
        rw [← Bool.not_eq_true, List.isSuffixOf_iff_suffix]
        exact h
      simp [this]
  have hw : whitelistError cfg.whitelist [] = none := by rw [hwl]; rfl
  cases k with
  | load => simp [plan, apiLoad, hst, loadPluginsImpl, hdir, hq, hw, loadPluginFiles, M.pure]
  | reload extra =>
    simp [plan, apiReload, loadPluginsImpl, hdir, hq, hw, loadPluginFiles, M.pure, bind, M.bind, M.emit]

end

/-! ### The hypotheses are met -/

section Examples
open Demo
attribute [local instance] Demo.rt

/-- C15, C16, C26: a reload that keeps `base` and renews `app`. -/
example : Reachable cfg m1 ∧ cfg.OK ∧ cfg.static = none ∧ publishes (plan cfg env2 (.reload none) m1.current m1.next).acts ≠ [] ∧
    appFile ∈ listedFiles cfg "/p".toList (both.map (fun n => ⟨n, false⟩)) ∧
    ((plan cfg env2 (.reload none) m1.current m1.next).built.plugins.map (fun p => (p.inst, statusSpec m1 p))) = [(2, "unchanged".toList), (4, "ok".toList)] ∧
    details? (plan cfg env2 (.reload none) m1.current m1.next).res = some [(baseFile, "unchanged".toList), (appFile, "ok".toList)] :=
  ⟨m1_reachable, cfg_ok, rfl, by simp only [ne_eq, ← List.isEmpty_iff, Bool.not_eq_true]; decide +kernel, by decide +kernel, by decide +kernel, by decide +kernel⟩

/-- A program whose `base` is not reloadable. -/
def envFixed : Env := env both (fs 10 20 (code false 1 []) goodApp)
/-- Its file has changed. -/
def envFixed2 : Env := env both (fs 11 21 (code false 1 []) goodApp)
/-- After the first load. -/
def mFixed : Machine := after cfg (callSteps .load envFixed 20)

/-- C14: a non-reloadable plugin is kept although its file has changed. -/
example : Reachable cfg mFixed ∧ publishes (plan cfg envFixed2 (.reload none) mFixed.current mFixed.next).acts ≠ [] ∧
    ((previous mFixed baseFile).map (·.inst) = some 2) ∧
    ((plan cfg envFixed2 (.reload none) mFixed.current mFixed.next).built.findPlugin "base".toList).map (fun p => (p.inst, p.note)) = some (2, Note.notReloadable) :=
  ⟨after_reachable (by decide +kernel), by simp only [ne_eq, ← List.isEmpty_iff, Bool.not_eq_true]; decide +kernel, by decide +kernel, by decide +kernel⟩

/-- C17: `base.so` and `BASE.so` in one directory. -/
example : ¬ ((listedFiles cfg "/p".toList ([⟨"base.so".toList, false⟩, ⟨"BASE.so".toList, false⟩] : List DirEntry)).map (fun f => name2key (pluginName f))).Nodup ∧
    error? (plan cfg (env ["base.so".toList, "BASE.so".toList] (fs 1 2 goodBase goodApp)) .load none 0).res = some (.duplicateName "base".toList) := by decide +kernel

/-- C39: a directory with a subdirectory and another file. -/
example : (∀ e ∈ ([⟨"x.so".toList, true⟩, ⟨"x.txt".toList, false⟩] : List DirEntry), e.isDir = true ∨ ¬ fileNameExt <:+ e.name) := by decide +kernel

end Examples
end Hotswap
