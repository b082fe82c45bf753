import Verif.Model.Loader
import Verif.Props.Hooks
import Verif.Proofs.Emits
import Verif.Props.Selection
import Verif.Props.Naming

/-!
# What the plugin loader of Go means for reloading (C67)
-/

namespace Hotswap

section
variable [GoRuntime]

/-! ### The loader -/

theorem Opens.grows {l l' : Loader} {path : Str} {b : Build} {r : OpenRes} (h : Opens l path b r l') :
    l'.cache = l.cache ∨ ∃ x, l'.cache = (path, x) :: l.cache := by
  cases h with
  | again _ => exact .inl rfl
  | failedBefore _ => exact .inl rfl
  | invalid _ _ => exact .inl rfl
  | alreadyLoaded _ _ _ => exact .inr ⟨_, rfl⟩
  | incompatible _ _ _ _ => exact .inr ⟨_, rfl⟩
  | loads _ _ _ _ _ => exact .inr ⟨_, rfl⟩

theorem Opens.sub {l l' : Loader} {path : Str} {b : Build} {r : OpenRes} (h : Opens l path b r l') {e : Str × Option Str} (he : e ∈ l.cache) : e ∈ l'.cache := by
  rcases h.grows with h | ⟨x, h⟩ <;> rw [h] <;> simp [he]

theorem Opens.new {l l' : Loader} {path : Str} {b : Build} {r : OpenRes} (h : Opens l path b r l') {e : Str × Option Str} (he : e ∈ l'.cache) : e ∈ l.cache ∨ e.1 = path := by
  rcases h.grows with h | ⟨x, h⟩ <;> rw [h] at he
  · exact .inl he
  · rcases List.mem_cons.mp he with rfl | he
    · exact .inr rfl
    · exact .inl he

theorem OpensAll.sub {P : Process} {stamp : Civil} {fs : FS} {l l' : Loader} {fl : List Str} (h : OpensAll P stamp fs l fl l') {e : Str × Option Str} (he : e ∈ l.cache) : e ∈ l'.cache := by
  induction h with
  | nil => exact he
  | cons _ ho _ ih => exact ih (ho.sub he)

theorem LStep.sub {cfg : Config} {P : Process} {m m' : Machine} {l l' : Loader} (h : LStep cfg P m l m' l') {e : Str × Option Str} (he : e ∈ l.cache) : e ∈ l'.cache := by
  cases h with
  | call k env stamp _ ho => exact ho.sub he
  | other lab _ _ => exact he

theorem LSteps.sub {cfg : Config} {P : Process} {m m' : Machine} {l l' : Loader} (h : LSteps cfg P m l m' l') {e : Str × Option Str} (he : e ∈ l.cache) : e ∈ l'.cache := by
  induction h with
  | refl => exact he
  | step _ hs ih => exact hs.sub ih

theorem mem_loaded {l : Loader} {p : Str} : p ∈ l.loaded ↔ ∃ path, (path, some p) ∈ l.cache := by
  unfold Loader.loaded
  rw [List.mem_filterMap]
  constructor
  · rintro ⟨⟨a, b⟩, h1, h2⟩; cases h2; exact ⟨a, h1⟩
  · rintro ⟨path, h⟩; exact ⟨_, h, rfl⟩

/-- The runs of a process are runs of the machine. -/
theorem LSteps.reachable {cfg : Config} {P : Process} {m m' : Machine} {l l' : Loader} (h : LSteps cfg P m l m' l') (hr : Reachable cfg m) : Reachable cfg m' := by
  induction h with
  | refl => exact hr
  | step _ hs ih =>
    cases hs with
    | call k env stamp h1 _ => exact .step _ ih h1
    | other lab _ h1 => exact .step _ ih h1

/-- The call of `plugin.Open` for a file. -/
theorem OpensAll.at {P : Process} {stamp : Civil} {fs : FS} {l l' : Loader} {fl : List Str} (h : OpensAll P stamp fs l fl l') {f : Str} (hf : f ∈ fl) :
    ∃ a b l1 l2 data, fl = a ++ f :: b ∧ fs.readFile f = some data ∧ OpensAll P stamp fs l a l1 ∧ Opens l1 (P.copy stamp f data) (P.build data) (fs.openPlugin f) l2 ∧ OpensAll P stamp fs l2 b l' := by
  induction h with
  | nil => cases hf
  | @cons l l1 l' g r data hr ho hrest ih =>
    rcases List.mem_cons.mp hf with rfl | hf
    · exact ⟨[], r, l, l1, data, rfl, hr, .nil, ho, hrest⟩
    · obtain ⟨a, b, k1, k2, data', h1, h2, h3, h4, h5⟩ := ih hf
      exact ⟨g :: a, b, k1, k2, data', by rw [h1]; rfl, h2, .cons hr ho h3, h4, h5⟩

theorem OpensAll.paths {P : Process} {stamp : Civil} {fs : FS} {l l' : Loader} {fl : List Str} (h : OpensAll P stamp fs l fl l') {e : Str × Option Str} (he : e ∈ l'.cache) :
    e ∈ l.cache ∨ ∃ g ∈ fl, ∃ data, fs.readFile g = some data ∧ e.1 = P.copy stamp g data := by
  induction h with
  | nil => exact .inl he
  | @cons l l1 l' g r data hr ho hrest ih =>
    rcases ih he with h | ⟨g', h1, data', h2, h3⟩
    · rcases ho.new h with h | h
      · exact .inl h
      · exact .inr ⟨g, by simp, data, hr, h⟩
    · exact .inr ⟨g', by simp [h1], data', h2, h3⟩

theorem copy_inj {P : Process} {stamp : Civil} {dir : Str} (hd : CleanDir dir) {x y : Str} (hx : fileNameExt <:+ x) (hy : fileNameExt <:+ y) (hxs : '/' ∉ x) (hys : '/' ∉ y) {d d' : Nat}
    (h : P.copy stamp (joinPath dir x) d = P.copy stamp (joinPath dir y) d') : x = y := by
  obtain ⟨x', rfl⟩ := hx
  obtain ⟨y', rfl⟩ := hy
  have hx' : '/' ∉ x' := fun hm => hxs (by simp [hm])
  have hy' : '/' ∉ y' := fun hm => hys (by simp [hm])
  unfold Process.copy runtimeCopy at h
  rw [(C36_copies_distinct _ dir x' y' _ _ hx' hy' hd h).1]

/-! ### C67 -/

/-- **C67.** In a process in which the plugin path of the contents `data` has been loaded, no load or reload succeeds that has to open a plugin file `f` with these contents again from a new copy (`hpath`: the path of the copy has not been used;
by C60 that is so if the load runs in another second). -/
theorem C67_not_opened_twice {cfg : Config} (hcfg : cfg.OK) (hst : cfg.static = none) {P : Process} {m : Machine} {l l' : Loader} (h : LSteps cfg P .init ⟨[]⟩ m l)
    (env : Env) (k : Kind) (stamp : Civil) (hopen : OpensAll P stamp env.fs l (plan cfg env k m.current m.next).opens l')
    {absDir : Str} {entries : List DirEntry} (hdir : env.dir = some (absDir, entries)) (hclean : CleanDir absDir) (hreal : RealEntries entries)
    {f : Str} (hf : f ∈ listedFiles cfg absDir entries) {data : Nat} (hread : env.fs.readFile f = some data) (hnew : NotKept env.fs m.current f)
    {p : Str} (hp : (P.build data).pluginPath = some p) (hloaded : p ∈ l.loaded) (hpath : P.copy stamp f data ∉ l.cache.map (·.1)) :
    ∀ d, (plan cfg env k m.current m.next).res ≠ .ok d := by
  intro d hr
  have hreach := h.reachable .init
  have hv := view hcfg hreach env k
  have hk : refused cfg k = false := by cases k <;> simp [refused, hst]
  rcases hv.success hk hr with ⟨_, _, _, a, es, hd, hnil⟩ | ⟨_, hpub⟩
  · rw [hdir] at hd; cases hd; rw [hnil] at hf; cases hf
  · have hpm : Act.publish (plan cfg env k m.current m.next).built ∈ (plan cfg env k m.current m.next).acts := mem_publishes.mp (by rw [hpub]; simp)
    obtain ⟨hop, hnd, _⟩ := C15_opened hcfg hst hreach env hpm hdir
    have hof : f ∈ (plan cfg env k m.current m.next).opens := (hop f).mpr ⟨hf, hnew⟩
    obtain ⟨absDir', entries', s0, s1, s', d', hd, _, cr, done, _, _, _, _⟩ := hv.dynamic hst hpm
    rw [hdir] at hd; cases hd
    have himg : ∃ syms code, env.fs.openPlugin f = .image syms code := by
      obtain ⟨data', q, hread', hget, hfate⟩ := done.stage1.fate f hf
      cases hfate with
      | notReloadable om old ho hk hr' hpe =>
        have := (hnew om old data ho hk hread).1
        rw [hr'] at this; cases this
      | unchanged om old ho hk hr' hs' hpe =>
        exact absurd hs' (hnew om old data' ho hk hread').2
      | renewed hno hb =>
        obtain ⟨syms, hi, _⟩ := hb.image
        exact ⟨syms, _, hi⟩
    obtain ⟨syms, code, himg⟩ := himg
    obtain ⟨a, b, l1, l2, data', hsplit, hread', h1, h2, _⟩ := hopen.at hof
    rw [hread] at hread'; cases hread'
    rw [himg] at h2
    cases h2 with
    | again hc =>
      rcases h1.paths hc with hc | ⟨g, hg, dg, hgr, he⟩
      · exact hpath (List.mem_map.mpr ⟨_, hc, rfl⟩)
      · have hnd' : (a ++ f :: b).Nodup := by rw [← hsplit]; exact hnd
        have hgf : g ≠ f := by
          rintro rfl
          exact (List.nodup_append.mp hnd').2.2 g hg g (by simp) rfl
        have hgl : g ∈ listedFiles cfg absDir entries := by
          refine ((hop g).mp ?_).1
          change g ∈ (plan cfg env k m.current m.next).opens
          rw [hsplit]; simp [hg]
        obtain ⟨e1, he1, hc1, rfl⟩ := (C30_considered cfg absDir entries g).mp hgl
        obtain ⟨e2, he2, hc2, rfl⟩ := (C30_considered cfg absDir entries f).mp hf
        have := copy_inj hclean hc2.2.1 hc1.2.1 (hreal e2 he2) (hreal e1 he1) he
        exact hgf (by rw [this])
    | loads _ hp' hnl _ _ =>
      rw [hp] at hp'; cases hp'
      obtain ⟨path, hm⟩ := mem_loaded.mp hloaded
      exact hnl (mem_loaded.mpr ⟨path, h1.sub hm⟩)

/-- A file that is opened without an error from an unused path is in the process afterwards. -/
theorem OpensAll.loads {P : Process} {stamp : Civil} {fs : FS} {l l' : Loader} {fl : List Str} (h : OpensAll P stamp fs l fl l') {f : Str} (hf : f ∈ fl) {data : Nat} (hread : fs.readFile f = some data)
    (hok : fs.openPlugin f ≠ .err) (hfresh : P.copy stamp f data ∉ l.cache.map (·.1))
    (hone : ∀ g ∈ fl, ∀ dg, fs.readFile g = some dg → P.copy stamp g dg = P.copy stamp f data → g = f) :
    ∃ p, (P.build data).pluginPath = some p ∧ (P.copy stamp f data, some p) ∈ l'.cache := by
  induction h with
  | nil => cases hf
  | @cons l l1 l' g r data' hr ho hrest ih =>
    by_cases hg : g = f
    · subst hg
      rw [hread] at hr; cases hr
      generalize hro : fs.openPlugin g = ro at ho hok
      cases ho with
      | again hc => exact absurd (List.mem_map.mpr ⟨_, hc, rfl⟩) hfresh
      | failedBefore _ => exact absurd rfl hok
      | invalid _ _ => exact absurd rfl hok
      | alreadyLoaded _ _ _ => exact absurd rfl hok
      | incompatible _ _ _ _ => exact absurd rfl hok
      | loads _ hp _ _ _ => exact ⟨_, hp, hrest.sub (by simp)⟩
    · refine ih (by rcases List.mem_cons.mp hf with h | h; exact absurd h.symm hg; exact h) ?_ (fun g' hg' => hone g' (by simp [hg']))
      intro hm
      obtain ⟨e, he, hep⟩ := List.mem_map.mp hm
      rcases ho.new he with he | he
      · exact hfresh (List.mem_map.mpr ⟨e, he, hep⟩)
      · exact hg (hone g (by simp) data' hr (by rw [← he, hep]))

theorem LSteps.trans {cfg : Config} {P : Process} {m m' m'' : Machine} {l l' l'' : Loader} (h : LSteps cfg P m l m' l') (h' : LSteps cfg P m' l' m'' l'') : LSteps cfg P m l m'' l'' := by
  induction h' with
  | refl => exact h
  | step _ hs ih => exact .step ih hs

theorem mem_opens {p : Plan} {f : Str} : f ∈ p.opens ↔ Act.openPlugin f ∈ p.acts := by
  unfold Plan.opens
  rw [List.mem_filterMap]
  constructor
  · rintro ⟨a, ha, h⟩
    cases a <;> simp at h
    subst h; exact ha
  · intro h; exact ⟨_, h, rfl⟩

/-- Two files that one call opens are copied to different paths. -/
theorem opens_one {cfg : Config} {env : Env} {k : Kind} {old : Option Manager} {next : Nat} {P : Process} {stamp : Civil} {absDir : Str} {entries : List DirEntry}
    (hdir : env.dir = some (absDir, entries)) (hclean : CleanDir absDir) (hreal : RealEntries entries) {f : Str} (hf : f ∈ (plan cfg env k old next).opens) {data : Nat} :
    ∀ g ∈ (plan cfg env k old next).opens, ∀ dg, env.fs.readFile g = some dg → P.copy stamp g dg = P.copy stamp f data → g = f := by
  intro g hg dg _ he
  have key : ∀ x ∈ (plan cfg env k old next).opens, ∃ e ∈ entries, fileNameExt <:+ e.name ∧ '/' ∉ e.name ∧ x = joinPath absDir e.name := by
    intro x hx
    obtain ⟨_, a, es, hd, hl, _⟩ := plan_opens (mem_opens.mp hx)
    rw [hdir] at hd; cases hd
    obtain ⟨e, he, hc, rfl⟩ := (C30_considered cfg absDir entries x).mp hl
    exact ⟨e, he, hc.2.1, hreal e he, rfl⟩
  obtain ⟨e1, _, s1, n1, rfl⟩ := key g hg
  obtain ⟨e2, _, s2, n2, rfl⟩ := key f hf
  rw [copy_inj hclean s1 s2 n1 n2 he]

/-- **C67.** A plugin that was opened once — by a load that failed later, or by one that succeeded, after which the plugin was removed or replaced — is in the process for good: let a load or reload (at `m1`) open `f1` with contents
`data`, whatever happened then; then, as long as the process lives, no load from another path of the copy (by C60: in another second) succeeds that has to open a file with the same contents. It has to be built anew (which gives it
another plugin path, C58). -/
theorem C67_no_retry {cfg : Config} (hcfg : cfg.OK) (hst : cfg.static = none) {P : Process}
    {m1 : Machine} {l1 l1' : Loader} (h1 : LSteps cfg P .init ⟨[]⟩ m1 l1) (env1 : Env) (k1 : Kind) (stamp1 : Civil)
    (hopen1 : OpensAll P stamp1 env1.fs l1 (plan cfg env1 k1 m1.current m1.next).opens l1') {m1' : Machine} (hstep1 : m1.step cfg (.call k1 env1) = some m1')
    {absDir1 : Str} {entries1 : List DirEntry} (hdir1 : env1.dir = some (absDir1, entries1)) (hclean1 : CleanDir absDir1) (hreal1 : RealEntries entries1)
    {f1 : Str} {data : Nat} (hf1 : Act.openPlugin f1 ∈ (plan cfg env1 k1 m1.current m1.next).acts) (hread1 : env1.fs.readFile f1 = some data) (hok1 : env1.fs.openPlugin f1 ≠ .err)
    (hpath1 : P.copy stamp1 f1 data ∉ l1.cache.map (·.1))
    {m : Machine} {l l' : Loader} (h : LSteps cfg P m1' l1' m l)
    (env : Env) (k : Kind) (stamp : Civil) (hopen : OpensAll P stamp env.fs l (plan cfg env k m.current m.next).opens l')
    {absDir : Str} {entries : List DirEntry} (hdir : env.dir = some (absDir, entries)) (hclean : CleanDir absDir) (hreal : RealEntries entries)
    {f : Str} (hf : f ∈ listedFiles cfg absDir entries) (hread : env.fs.readFile f = some data) (hnew : NotKept env.fs m.current f)
    (hpath : P.copy stamp f data ∉ l.cache.map (·.1)) :
    ∀ d, (plan cfg env k m.current m.next).res ≠ .ok d := by
  have hk1 : refused cfg k1 = false := by cases k1 <;> simp [refused, hst]
  have hs1 : LStep cfg P m1 l1 m1' l1' := .call k1 env1 stamp1 hstep1 (by rw [hk1]; exact hopen1)
  obtain ⟨p, hp, hc⟩ := hopen1.loads (mem_opens.mpr hf1) hread1 hok1 hpath1 (opens_one hdir1 hclean1 hreal1 (mem_opens.mpr hf1))
  exact C67_not_opened_twice hcfg hst ((LSteps.step h1 hs1).trans h) env k stamp hopen hdir hclean hreal hf hread hnew hp (mem_loaded.mpr ⟨_, h.sub hc⟩) hpath

/-- **C67.** A new build opens: if the contents of a file that a load opens are a plugin that fits the program, whose plugin path is neither in the process nor that of another file this load opens, and the path of the copy is
unused, then `plugin.Open` does not fail for it. -/
theorem C67_new_build_opens {cfg : Config} {env : Env} {k : Kind} {m : Machine} {P : Process} {stamp : Civil} {l l' : Loader}
    (hopen : OpensAll P stamp env.fs l (plan cfg env k m.current m.next).opens l')
    {absDir : Str} {entries : List DirEntry} (hdir : env.dir = some (absDir, entries)) (hclean : CleanDir absDir) (hreal : RealEntries entries)
    {f : Str} (hf : Act.openPlugin f ∈ (plan cfg env k m.current m.next).acts) {data : Nat} (hread : env.fs.readFile f = some data)
    {p : Str} (hb : P.build data = ⟨some p, true⟩) (hnl : p ∉ l.loaded) (hpath : P.copy stamp f data ∉ l.cache.map (·.1))
    (hothers : ∀ g, Act.openPlugin g ∈ (plan cfg env k m.current m.next).acts → ∀ dg, env.fs.readFile g = some dg → (P.build dg).pluginPath = some p → g = f) :
    env.fs.openPlugin f ≠ .err := by
  have hone := opens_one (P := P) (stamp := stamp) (data := data) hdir hclean hreal (mem_opens.mpr hf)
  have hothers' : ∀ g ∈ (plan cfg env k m.current m.next).opens, ∀ dg, env.fs.readFile g = some dg → (P.build dg).pluginPath = some p → g = f :=
    fun g hg => hothers g (mem_opens.mp hg)
  have hf' := mem_opens.mpr hf
  clear hothers
  generalize (plan cfg env k m.current m.next).opens = fl at hopen hone hothers' hf'
  clear hf
  induction hopen with
  | nil => cases hf'
  | @cons l l1 l' g r data' hr ho hrest ih =>
    by_cases hg : g = f
    · subst hg
      rw [hread] at hr; cases hr
      rw [hb] at ho
      intro herr
      rw [herr] at ho
      generalize hre : OpenRes.err = re at ho
      cases ho with
      | again _ => cases hre
      | failedBefore hc => exact hpath (List.mem_map.mpr ⟨_, hc, rfl⟩)
      | invalid _ hp => cases hp
      | alreadyLoaded _ hp hm => cases hp; exact hnl hm
      | incompatible _ _ _ hc => cases hc
      | loads _ _ _ _ hne => exact hne hre.symm
    · refine ih ?_ ?_ (fun g' hg' => hone g' (by simp [hg'])) (fun g' hg' => hothers' g' (by simp [hg'])) (by rcases List.mem_cons.mp hf' with h | h; exact absurd h.symm hg; exact h)
      · intro hm
        obtain ⟨path, he⟩ := mem_loaded.mp hm
        generalize hro : env.fs.openPlugin g = ro at ho
        have hold : (path, some p) ∉ l.cache := fun h => hnl (mem_loaded.mpr ⟨_, h⟩)
        cases ho with
        | again _ => exact hold he
        | failedBefore _ => exact hold he
        | invalid _ _ => exact hold he
        | alreadyLoaded _ _ _ =>
          rcases List.mem_cons.mp he with h | h
          · cases h
          · exact hold h
        | incompatible _ _ _ _ =>
          rcases List.mem_cons.mp he with h | h
          · cases h
          · exact hold h
        | loads _ hp _ _ _ =>
          rcases List.mem_cons.mp he with h | h
          · cases h; exact hg (hothers' g (by simp) data' hr hp)
          · exact hold h
      · intro hm
        obtain ⟨e, he, hep⟩ := List.mem_map.mp hm
        rcases ho.new he with he | he
        · exact hpath (List.mem_map.mpr ⟨e, he, hep⟩)
        · exact hg (hone g (by simp) data' hr (by rw [← he, hep]))

end

/-! ### Example: a failed reload cannot be repeated -/

namespace Demo

attribute [local instance] rt

/-- Every build has another plugin path. -/
def proc : Process := ⟨42, fun d => ⟨some (Nat.repr d).toList, true⟩, id⟩

def stampA : Civil := ⟨2024, 2, 29, 23, 59, 58⟩
def stampB : Civil := ⟨2024, 2, 29, 23, 59, 59⟩

theorem stampA_valid : stampA.Valid := ⟨by decide, by decide, by decide, by decide, by decide⟩
theorem stampB_valid : stampB.Valid := ⟨by decide, by decide, by decide, by decide, by decide⟩

theorem clean_p : CleanDir "/p".toList := .inr ⟨by decide, by decide⟩

theorem copy_ne (f : Str) (x : Str) (hx : '/' ∉ x) (hf : f = joinPath "/p".toList (x ++ fileNameExt)) (d d' : Nat) : proc.copy stampA f d ≠ proc.copy stampB f d' := by
  subst hf
  intro h
  have := (C60_copies_of_loads stampA_valid stampB_valid 42 42 _ _ x x _ _ clean_p clean_p hx hx).mp h
  exact absurd this.2.2.2.2 (fun h => absurd h.sec (by decide))

theorem lsteps_run {cfg : Config} {P : Process} {l : Loader} {ls : List Label} {m m' : Machine} (hne : ∀ lab ∈ ls, ∀ k env, lab ≠ .call k env) (h : run cfg m ls = some m') :
    LSteps cfg P m l m' l := by
  induction ls generalizing m with
  | nil => cases h; exact .refl
  | cons a r ih =>
    unfold run at h
    cases hs : m.step cfg a with
    | none => rw [hs] at h; cases h
    | some m1 =>
      rw [hs] at h
      exact (LSteps.step .refl (.other a (hne a (by simp)) hs)).trans (ih (fun b hb => hne b (by simp [hb])) h)

/-- Load `env5` (in which `OnInit` of `app` fails) into a fresh process. -/
def firstTry : List Label := callSteps .load env5 24

/-- The same files again; `OnInit` would succeed now, but `plugin.Open` answers that `app` is already loaded. -/
def env6 : Env := env both { fs 10 22 goodBase goodApp with openPlugin := fun _ => .err }

def called : Machine := (Machine.init.step cfg (.call .load env5)).getD .init

theorem firstTry_fails : error? (plan cfg env5 .load none 0).res = some (.hookErr "app".toList) ∧
    (plan cfg env5 .load none 0).opens = [appFile, baseFile] ∧ (run cfg .init firstTry).isSome = true ∧ (after cfg firstTry).current.isNone = true ∧
    (plan cfg env6 .load (after cfg firstTry).current (after cfg firstTry).next).opens = [appFile] := by decide +kernel

def isErr : OpenRes → Bool
  | .err => true
  | _ => false

theorem not_err {r : OpenRes} (h : isErr r = false) : r ≠ .err := by rintro rfl; cases h

theorem called_eq : Machine.init.step cfg (.call .load env5) = some called := rfl

theorem after_called : run cfg called (List.replicate 24 .act ++ [.ret]) = some (after cfg firstTry) := by
  obtain ⟨m, hm⟩ := Option.isSome_iff_exists.mp firstTry_fails.2.2.1
  have h2 : after cfg firstTry = m := by rw [after, hm]; rfl
  rw [h2, ← hm]
  simp only [firstTry, callSteps, run, called_eq]

theorem app_eq : appFile = joinPath "/p".toList ("app".toList ++ fileNameExt) := by decide +kernel
theorem base_eq : baseFile = joinPath "/p".toList ("base".toList ++ fileNameExt) := by decide +kernel

/-- The loader after the first try. -/
def loader1 : Loader := ⟨[(proc.copy stampA baseFile 10, some (Nat.repr 10).toList), (proc.copy stampA appFile 22, some (Nat.repr 22).toList)]⟩

theorem base_app_copies : proc.copy stampA baseFile 10 ≠ proc.copy stampA appFile 22 := by
  rw [base_eq, app_eq]
  intro h
  have := (C60_copies_of_loads stampA_valid stampA_valid 42 42 _ _ "base".toList "app".toList _ _ clean_p clean_p (by decide) (by decide)).mp h
  exact absurd this.2.1 (by decide)

theorem opens1 : OpensAll proc stampA env5.fs ⟨[]⟩ (plan cfg env5 .load Machine.init.current Machine.init.next).opens loader1 := by
  have h : (plan cfg env5 .load Machine.init.current Machine.init.next).opens = [appFile, baseFile] := firstTry_fails.2.1
  rw [h]
  refine .cons (data := 22) (by decide +kernel) (.loads (p := (Nat.repr 22).toList) (by simp) rfl (by simp [Loader.loaded]) rfl ?_) (.cons (data := 10) (by decide +kernel) (.loads (p := (Nat.repr 10).toList) ?_ rfl ?_ rfl ?_) .nil)
  · exact not_err (by decide +kernel)
  · simpa using base_app_copies
  · decide +kernel
  · exact not_err (by decide +kernel)

theorem app_unused : proc.copy stampB appFile 22 ∉ loader1.cache.map (·.1) := by
  intro hm
  simp only [loader1, List.map_cons, List.map_nil, List.mem_cons, List.not_mem_nil, or_false] at hm
  rcases hm with h | h
  · rw [base_eq, app_eq] at h
    have := (C60_copies_of_loads stampB_valid stampA_valid 42 42 _ _ "app".toList "base".toList _ _ clean_p clean_p (by decide) (by decide)).mp h
    exact absurd this.2.1 (by decide)
  · exact copy_ne appFile "app".toList (by decide) app_eq 22 22 h.symm

theorem real_both : RealEntries (both.map (fun n => ⟨n, false⟩)) := by
  unfold RealEntries; decide +kernel

/-- The hypotheses are met: the first load of a process fails in `OnInit` of `app`; one second later the same files cannot be loaded. -/
example : ∀ d, (plan cfg env6 .load (after cfg firstTry).current (after cfg firstTry).next).res ≠ .ok d := by
  have hopen : OpensAll proc stampB env6.fs loader1 (plan cfg env6 .load (after cfg firstTry).current (after cfg firstTry).next).opens ⟨(proc.copy stampB appFile 22, none) :: loader1.cache⟩ := by
    rw [firstTry_fails.2.2.2.2]
    refine .cons (data := 22) (by decide +kernel) (.alreadyLoaded (p := (Nat.repr 22).toList) app_unused rfl ?_) .nil
    rw [mem_loaded]; exact ⟨_, by simp [loader1]; exact .inr rfl⟩
  have hdir : env6.dir = some ("/p".toList, both.map (fun n => ⟨n, false⟩)) := rfl
  refine C67_no_retry cfg_ok rfl (P := proc) (l1 := ⟨[]⟩) .refl env5 .load stampA opens1 called_eq (f1 := appFile) (data := 22) rfl clean_p real_both ?_ (by decide +kernel) ?_ (by simp)
    (lsteps_run ?_ after_called) env6 .load stampB hopen hdir clean_p real_both (f := appFile) (by decide +kernel) (by decide +kernel) ?_ app_unused
  · refine mem_opens.mp ?_
    rw [show (plan cfg env5 .load Machine.init.current Machine.init.next).opens = [appFile, baseFile] from firstTry_fails.2.1]
    simp
  · exact not_err (by decide +kernel)
  · intro lab hl k e he
    subst he
    simp at hl
  · intro om oldP data hom
    have := firstTry_fails.2.2.2.1
    rw [hom] at this
    cases this

end Demo

end Hotswap
