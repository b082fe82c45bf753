import Verif.Spec.Complete
import Verif.Props.Errors
import Verif.Props.Hooks
import Mathlib.Data.List.Pairwise

/-!
# Loads that must succeed: C54, C55
-/

namespace Hotswap

section
variable [GoRuntime]

theorem Offers.unique {fs : FS} {old : Option Manager} {f : Str} {u v : Bool} {P Q : Plugin} (h : Offers fs old f u P) (h' : Offers fs old f v Q) : u = v ∧ P = Q := by
  cases h with
  | kept h =>
    obtain ⟨om, data, ho, hf, hr, hw⟩ := h
    cases h' with
    | kept h' =>
      obtain ⟨om', data', ho', hf', hr', hw'⟩ := h'
      rw [ho] at ho'; cases ho'
      rw [hf] at hf'; cases hf'
      exact ⟨rfl, rfl⟩
    | fresh hn =>
      obtain ⟨h1, h2⟩ := hn om _ data ho hf hr
      rcases hw with hw | hw
      · rw [h1] at hw; cases hw
      · exact absurd hw h2
  | fresh hn hr ho h1 h2 =>
    cases h' with
    | kept h' =>
      obtain ⟨om, data, ho, hf, hr, hw⟩ := h'
      obtain ⟨h1, h2⟩ := hn om _ data ho hf hr
      rcases hw with hw | hw
      · rw [h1] at hw; cases hw
      · exact absurd hw h2
    | fresh hn' hr' ho' h1' h2' =>
      rw [hr] at hr'; cases hr'
      rw [ho] at ho'; cases ho'
      rw [h1] at h1'; cases h1'
      rw [h2] at h2'; cases h2'
      exact ⟨rfl, rfl⟩

/-- A plugin of the manager under construction and what it was made of. -/
structure MadeOf (P a : Plugin) : Prop where
  name : P.name = a.name
  code : P.code = a.code
  reloadable : P.reloadable = a.reloadable
  exported : P.exported = a.exported
  file : P.file = a.file
  sha : P.sha = a.sha
  deps : P.unchanged = true → P.deps = a.deps
  inst : P.unchanged = true → P.inst = a.inst

theorem FileFate.offers {fs : FS} {old : Option Manager} {f : Str} {data : Nat} {p : Plugin} (hr : fs.readFile f = some data) (h : FileFate fs old f data p) :
    ∃ a, Offers fs old f p.unchanged a ∧ MadeOf p a := by
  cases h with
  | notReloadable om oldP h hk hrel hp =>
    subst hp
    exact ⟨oldP, .kept ⟨om, data, h, hk, hr, .inl hrel⟩, ⟨rfl, rfl, rfl, rfl, rfl, rfl, fun _ => rfl, fun _ => rfl⟩⟩
  | unchanged om oldP h hk hrel hs hp =>
    subst hp
    exact ⟨oldP, .kept ⟨om, data, h, hk, hr, .inr hs⟩, ⟨rfl, rfl, rfl, rfl, rfl, rfl, fun _ => rfl, fun _ => rfl⟩⟩
  | renewed h hb =>
    obtain ⟨syms, ho, hsy, _⟩ := hb.image
    have hn : NotKept fs old f := by
      intro om oldP d h1 h2 h3
      rw [hr] at h3; cases h3
      exact h om oldP h1 h2
    rw [hb.changed]
    refine ⟨_, .fresh hn hr ho hb.faithful.1 hb.faithful.2, ⟨hb.name, rfl, rfl, rfl, hb.file, hb.sha, fun hu => ?_, fun hu => ?_⟩⟩ <;>
      (rw [hb.changed] at hu; cases hu)

theorem made_of {fs : FS} {old : Option Manager} {n0 : Nat} {pm0 : Manager} {files : List Str} {s1 : LoadSt} {m : GoMap Plugin}
    (done : Stage1Done old n0 pm0 fs files s1) (same : SameMap s1.pm.pluginMap m) {key : Str} {P : Plugin} (hP : m.get? key = some P) :
    ∃ f ∈ files, fileKey f = key ∧ ∃ a, Offers fs old f P.unchanged a ∧ MadeOf P a := by
  obtain ⟨p, d, b, hp, he, hu⟩ := same.get' hP
  obtain ⟨f, hf, hk⟩ := done.only key p hp
  obtain ⟨data, p', hr, hp', hfate⟩ := done.fate f hf
  rw [hk, hp] at hp'; cases hp'
  obtain ⟨a, ha, hm⟩ := hfate.offers hr
  refine ⟨f, hf, hk, a, ?_, ?_⟩
  · rw [he]; exact ha
  · cases hpu : p.unchanged with
    | true => rw [hu hpu]; exact hm
    | false =>
      rw [he]
      refine ⟨hm.name, hm.code, hm.reloadable, hm.exported, hm.file, hm.sha, fun h => ?_, fun h => ?_⟩ <;>
      · change p.unchanged = true at h
        rw [hpu] at h; cases h

theorem made_from {fs : FS} {old : Option Manager} {n0 : Nat} {pm0 : Manager} {files : List Str} {s1 : LoadSt} {m : GoMap Plugin}
    (done : Stage1Done old n0 pm0 fs files s1) (same : SameMap s1.pm.pluginMap m) {f : Str} (hf : f ∈ files) {u : Bool} {a : Plugin} (ha : Offers fs old f u a) :
    ∃ P, m.get? (fileKey f) = some P ∧ P.unchanged = u ∧ MadeOf P a := by
  obtain ⟨data, p, hr, hp, hfate⟩ := done.fate f hf
  obtain ⟨d, b, hg⟩ := same.get _ p hp
  obtain ⟨g, hg1, hg2, a', ha', hm'⟩ := made_of done same hg
  have hgf : g = f := by
    have := done.nodup
    exact List.inj_on_of_nodup_map this hg1 hf hg2
  subst hgf
  obtain ⟨h1, h2⟩ := ha'.unique ha
  subst h2
  exact ⟨_, hg, h1, hm'⟩

theorem MadeOf.importField {P a : Plugin} (h : MadeOf P a) {fd : Field} (hf : fd ∈ importFields P) : ImportField a fd ∧ importable fd = true := by
  obtain ⟨h1, h2⟩ := mem_importFields.mp hf
  refine ⟨?_, h2⟩
  unfold ImportField at *
  rw [← h.code]; exact h1

/-- The position of the plugin with key `k` in a list. -/
def posOf (l : List Plugin) (k : Str) : Nat := (l.map (fun p => name2key p.name)).idxOf k

theorem posOf_lt_length {l : List Plugin} {p : Plugin} (h : p ∈ l) : posOf l (name2key p.name) < l.length := by
  unfold posOf
  have : name2key p.name ∈ l.map (fun p => name2key p.name) := List.mem_map.mpr ⟨p, h, rfl⟩
  simpa using List.idxOf_lt_length_of_mem this

theorem posOf_split {before after : List Plugin} {p q : Plugin} (hnd : ((before ++ p :: after).map (fun p => name2key p.name)).Nodup) (hq : q ∈ before) :
    posOf (before ++ p :: after) (name2key q.name) < posOf (before ++ p :: after) (name2key p.name) := by
  unfold posOf
  have hqm : name2key q.name ∈ before.map (fun p => name2key p.name) := List.mem_map.mpr ⟨q, hq, rfl⟩
  rw [List.map_append, List.map_cons] at hnd ⊢
  rw [List.idxOf_append_of_mem hqm]
  have hpm : name2key p.name ∉ before.map (fun p => name2key p.name) := by
    intro h
    rw [List.nodup_append] at hnd
    exact hnd.2.2 _ h _ (by simp) rfl
  rw [List.idxOf_append_of_notMem hpm]
  have := List.idxOf_lt_length_of_mem hqm
  omega

/-- In a good manager a dependency has a smaller position. -/
theorem GoodManager.pos {n : Nat} {om : Manager} (h : GoodManager n om) {a q : Plugin} {k d : Str} (ha : om.pluginMap.get? k = some a) (hd : d ∈ a.deps)
    (hq : om.pluginMap.get? (name2key d) = some q) : posOf om.ordered (name2key q.name) < posOf om.ordered (name2key a.name) := by
  have hmem : a ∈ om.ordered := h.ordered.mem_iff.mpr (GoMap.mem_vals.mpr ⟨k, ha⟩)
  obtain ⟨before, after, he⟩ := List.append_of_mem hmem
  obtain ⟨q', hq', hg⟩ := h.topo before a after he d hd
  rw [hq] at hg; cases hg
  rw [he]
  refine posOf_split ?_ hq'
  rw [← he]
  have hp : (om.ordered.map (fun p => name2key p.name)).Perm (om.pluginMap.vals.map (fun p => name2key p.name)) := h.ordered.map _
  refine hp.symm.nodup ?_
  have : om.pluginMap.vals.map (fun p => name2key p.name) = om.pluginMap.keys := by
    unfold GoMap.vals GoMap.keys
    rw [List.map_map]
    apply List.map_congr_left
    intro e he
    refine h.keyed e.1 e.2 ?_
    exact GoMap.get?_eq_some.mpr he
  rw [this]
  exact om.pluginMap.nodup

/-- The facts about a load in its later phases that the cases below need. -/
structure Late (off : Str → Bool → Plugin → Prop) (old : Option Manager) (n0 : Nat) (files : List Str) (m : GoMap Plugin) : Prop where
  good : ∀ om, old = some om → GoodManager n0 om
  keyed : Keyed m
  uniq : ∀ f u v P Q, off f u P → off f v Q → u = v ∧ P = Q
  src : ∀ f ∈ files, ∀ g ∈ files, ∀ u v P Q, off f u P → off g v Q → name2key P.name = name2key Q.name → f = g
  kept : ∀ f P, off f true P → ∃ om k, old = some om ∧ om.pluginMap.get? k = some P
  of : ∀ key P, m.get? key = some P → ∃ f ∈ files, ∃ a, off f P.unchanged a ∧ MadeOf P a
  back : ∀ f ∈ files, ∀ u a, off f u a → ∃ P, m.get? (name2key a.name) = some P ∧ P.unchanged = u ∧ MadeOf P a

section
variable {off : Str → Bool → Plugin → Prop} {env : Env} {old : Option Manager} {n0 : Nat} {files : List Str} {m : GoMap Plugin} {data : Nat}

/-- The plugin made of an offer is found under its name. -/
theorem Late.find (h : Late off old n0 files m) {g : Str} (hg : g ∈ files) {u : Bool} {a : Plugin} (ha : off g u a) :
    ∃ P, m.get? (name2key a.name) = some P ∧ P.unchanged = u ∧ MadeOf P a := h.back g hg u a ha

theorem Late.of' (h : Late off old n0 files m) {P : Plugin} (hP : P ∈ m.vals) :
    ∃ f ∈ files, ∃ a, off f P.unchanged a ∧ MadeOf P a := by
  obtain ⟨k, hk⟩ := GoMap.mem_vals.mp hP
  exact h.of k P hk

/-- A kept plugin in the manager it is kept from. -/
theorem Late.origin (h : Late off old n0 files m) {f : Str} {P : Plugin} (hP : off f true P) :
    ∃ om, old = some om ∧ om.pluginMap.get? (name2key P.name) = some P ∧ P ∈ om.ordered := by
  obtain ⟨om, k, ho, hk⟩ := h.kept f P hP
  have hg := h.good om ho
  refine ⟨om, ho, by rw [hg.keyed k P hk]; exact hk, hg.ordered.mem_iff.mpr (GoMap.mem_vals.mpr ⟨k, hk⟩)⟩

/-- The dependencies of kept plugins are there, and kept. -/
theorem Late.keeps (h : Late off old n0 files m) (hl : Fits off data files) {key : Str} {P : Plugin} (hP : m.get? key = some P) (hu : P.unchanged = true)
    {d : Str} (hd : d ∈ P.deps) : ∃ Q, m.get? (name2key d) = some Q ∧ Q.unchanged = true := by
  obtain ⟨f, hf, a, ha, hm⟩ := h.of key P hP
  rw [hu] at ha
  rw [hm.deps hu] at hd
  obtain ⟨g, hg, Q, hQ, hn⟩ := hl.keeps f hf a ha d hd
  obtain ⟨R, hR, hRu, hRm⟩ := h.find hg hQ
  exact ⟨R, by rw [← hn]; exact hR, hRu⟩

/-- The measure that decreases along dependencies. -/
def height (old : Option Manager) (rank : Str → Nat) (P : Plugin) : Nat :=
  match old with
  | none => rank (name2key P.name)
  | some om => if P.unchanged then posOf om.ordered (name2key P.name) else om.ordered.length + rank (name2key P.name)

theorem Late.edge (h : Late off old n0 files m) (hl : Fits off data files) (hres : ∀ k p, m.get? k = some p → p.unchanged = false → Resolved m p)
    {rank : Str → Nat} (hrank : ∀ f ∈ files, ∀ P, off f false P → ∀ fd, ImportField P fd → importable fd = true →
      ∀ g ∈ files, ∀ Q, off g false Q → name2key Q.name = name2key fd.name → rank (name2key Q.name) < rank (name2key P.name))
    {k : Str} {P Q : Plugin} (hP : m.get? k = some P) {d : Str} (hd : d ∈ P.deps) (hQ : m.get? (name2key d) = some Q) : height old rank Q < height old rank P := by
  obtain ⟨f, hf, a, ha, hma⟩ := h.of k P hP
  obtain ⟨g, hg, b, hb, hmb⟩ := h.of _ Q hQ
  cases hu : P.unchanged with
  | true =>
    obtain ⟨Q', hQ', hQu⟩ := h.keeps hl hP hu hd
    rw [hQ] at hQ'; cases hQ'
    rw [hu] at ha
    rw [hQu] at hb
    obtain ⟨om, ho, haf, _⟩ := h.origin ha
    obtain ⟨om', ho', hbf, _⟩ := h.origin hb
    rw [ho] at ho'; cases ho'
    unfold height
    rw [ho]
    simp only [hu, hQu, if_true]
    rw [hma.name, hmb.name]
    refine (h.good om ho).pos haf (d := d) (by rw [← hma.deps hu]; exact hd) ?_
    have := h.keyed _ _ hQ
    rw [← this, hmb.name]; exact hbf
  | false =>
    obtain ⟨h1, h2, _⟩ := hres k P hP hu
    rw [h2] at hd
    obtain ⟨fd, hfd, hdm⟩ := List.mem_filterMap.mp hd
    obtain ⟨dep, hdep, rfl⟩ := Option.map_eq_some_iff.mp hdm
    have hkd := h.keyed _ _ hdep
    rw [hkd, hdep] at hQ; cases hQ
    rw [hu] at ha
    obtain ⟨hif, himp⟩ := hma.importField hfd
    cases hqu : Q.unchanged with
    | true =>
      rw [hqu] at hb
      obtain ⟨om, ho, _, hbm⟩ := h.origin hb
      unfold height
      rw [ho]
      simp only [hu, hqu, if_true, Bool.false_eq_true, if_false]
      rw [hmb.name]
      have := posOf_lt_length (l := om.ordered) (p := b) hbm
      omega
    | false =>
      rw [hqu] at hb
      have := hrank f hf a ha fd hif himp g hg b hb (by rw [← hmb.name]; exact hkd)
      rw [← hmb.name, ← hma.name] at this
      unfold height
      cases old with
      | none => exact this
      | some om =>
        simp only [hu, hqu, Bool.false_eq_true, if_false]
        omega

/-- Two different plugins of a good manager declare different live names. -/
theorem live_disjoint {live : Plugin → Ret (Option (GoMap Val))} {l : List Plugin} (h : LiveOK live l) {x y : Plugin} (hx : x ∈ l) (hy : y ∈ l) (hne : x ≠ y) :
    Disjoint (live x) (live y) := by
  have hs : ∀ p q : Plugin, Disjoint (live p) (live q) → Disjoint (live q) (live p) := by
    intro p q hd a b ha hb n hn
    by_contra hc
    exact hn (hd b a hb ha n hc)
  have hpw : l.Pairwise (fun p q => Disjoint (live p) (live q)) := h.2
  haveI : Std.Symm (fun p q : Plugin => Disjoint (live p) (live q)) := ⟨fun p q => hs p q⟩
  exact hpw.forall hx hy hne

theorem Late.live (h : Late off old n0 files m) (hl : Fits off data files) {x y : Plugin} (hx : x ∈ m.vals) (hy : y ∈ m.vals) (hne : name2key x.name ≠ name2key y.name) :
    Disjoint x.code.liveFuncs y.code.liveFuncs ∧ Disjoint x.code.liveTypes y.code.liveTypes := by
  obtain ⟨f, hf, a, ha, hma⟩ := h.of' hx
  obtain ⟨g, hg, b, hb, hmb⟩ := h.of' hy
  have hab : a ≠ b := by
    rintro rfl
    exact hne (by rw [hma.name, hmb.name])
  have hfg : f ≠ g := by
    rintro rfl
    exact hab (h.uniq _ _ _ _ _ ha hb).2
  rw [hma.code, hmb.code]
  by_cases hu : x.unchanged = true ∧ y.unchanged = true
  · rw [hu.1] at ha
    rw [hu.2] at hb
    obtain ⟨om, ho, _, ham⟩ := h.origin ha
    obtain ⟨om', ho', _, hbm⟩ := h.origin hb
    rw [ho] at ho'; cases ho'
    have hgood := h.good om ho
    exact ⟨live_disjoint (live := (·.code.liveFuncs)) hgood.liveFuncs ham hbm hab, live_disjoint (live := (·.code.liveTypes)) hgood.liveTypes ham hbm hab⟩
  · refine hl.disjoint f hf g hg hfg _ _ a b ha hb ?_
    cases hxu : x.unchanged with
    | false => exact .inl rfl
    | true =>
      cases hyu : y.unchanged with
      | false => exact .inr rfl
      | true => exact absurd ⟨hxu, hyu⟩ hu

/-- Every plugin has maps of live functions and types. -/
theorem Late.maps (h : Late off old n0 files m) (hl : Fits off data files) {x : Plugin} (hx : x ∈ m.vals) :
    (∃ mm, x.code.liveFuncs = .ret (some mm)) ∧ ∃ mm, x.code.liveTypes = .ret (some mm) := by
  obtain ⟨f, hf, a, ha, hma⟩ := h.of' hx
  rw [hma.code]
  cases hu : x.unchanged with
  | false => rw [hu] at ha; exact hl.live f hf a ha
  | true =>
    rw [hu] at ha
    obtain ⟨om, ho, _, ham⟩ := h.origin ha
    have hgood := h.good om ho
    exact ⟨hgood.liveFuncs.1 a ham, hgood.liveTypes.1 a ham⟩

/-- The later phases of the load of a set without faults do not fail. -/
theorem Late.no_failure {s1 sb : LoadSt} {it : Iter} {f : Fail} (h : Late off old n0 files sb.pm.pluginMap) (hl : Fits off data files)
    (why : FinishFailed s1 it data f sb) : False := by
  have hord : ∀ q ∈ sb.pm.ordered, q ∈ sb.pm.pluginMap.vals := by
    intro q hq
    rcases why.frame.order with h | h
    · rw [h] at hq; cases hq
    · exact h.perm.mem_iff.mp hq
  have hkeys : sb.pm.ordered ≠ [] → (sb.pm.ordered.map (fun p => name2key p.name)).Nodup := by
    intro hne
    rcases why.frame.order with ho | ho
    · exact absurd ho hne
    · refine (ho.perm.map (fun p => name2key p.name)).symm.nodup ?_
      have : sb.pm.pluginMap.vals.map (fun p => name2key p.name) = sb.pm.pluginMap.keys := by
        unfold GoMap.vals GoMap.keys
        rw [List.map_map]
        apply List.map_congr_left
        intro e he
        exact h.keyed e.1 e.2 (GoMap.get?_eq_some.mpr he)
      rw [this]
      exact sb.pm.pluginMap.nodup
  have hdup : ∀ {x y : Plugin} {before mid after : List Plugin}, sb.pm.ordered = before ++ x :: mid ++ y :: after → name2key x.name ≠ name2key y.name := by
    intro x y before mid after he heq
    have hnd := hkeys (by rw [he]; simp)
    rw [he, List.append_assoc, List.map_append, List.nodup_append] at hnd
    have := hnd.2.1
    rw [List.cons_append, List.map_cons, List.nodup_cons] at this
    exact this.1 (List.mem_map.mpr ⟨y, by simp, heq.symm⟩)
  -- fresh plugins
  have hfresh : ∀ q ∈ sb.pm.pluginMap.vals, q.unchanged = false → ∃ g ∈ files, ∃ a, off g false a ∧ MadeOf q a := by
    intro q hq hu
    obtain ⟨g, hg, a, ha, hm⟩ := h.of' hq
    rw [hu] at ha
    exact ⟨g, hg, a, ha, hm⟩
  have hbind : ∀ q ∈ sb.pm.pluginMap.vals, q.unchanged = false → ∀ fd ∈ importFields q,
      fd.anonymous = false ∧ ∃ Q, sb.pm.pluginMap.get? (name2key fd.name) = some Q ∧ (q.reloadable = false → Q.reloadable = false) ∧
        ∀ v, Q.exported = some v → isNil (some v) = false → GoRuntime.assignable v.typ fd.typ = true ∧ ExportedName fd.name := by
    intro q hq hu fd hfd
    obtain ⟨g, hg, a, ha, hm⟩ := hfresh q hq hu
    obtain ⟨hif, himp⟩ := hm.importField hfd
    obtain ⟨h1, g', hg', u, b, hb, hbd⟩ := hl.imports g hg a ha fd hif himp
    obtain ⟨R, hR, _, hRm⟩ := h.find hg' hb
    refine ⟨h1, R, by rw [← hbd.name]; exact hR, ?_, ?_⟩
    · intro hr
      rw [hRm.reloadable]
      exact hbd.stable (by rw [← hm.reloadable]; exact hr)
    · intro v hv
      rw [hRm.exported] at hv
      exact hbd.typed v hv
  have hfail := why.fail
  have hlast := why.last
  cases f with
  | inl e =>
    cases e with
    | cyclic names =>
      obtain ⟨⟨pre, last, hn, hch, hin⟩, hres⟩ := hfail
      obtain ⟨rank, hrank⟩ := hl.acyclic
      -- the heights along the chain decrease
      have hdec : ∀ (l : List Str) (x : Str) (P : Plugin), sb.pm.pluginMap.get? (name2key x) = some P → Chain sb.pm.pluginMap (x :: l) →
          ∀ y ∈ l, ∃ Q, sb.pm.pluginMap.get? (name2key y) = some Q ∧ height old rank Q < height old rank P := by
        intro l
        induction l with
        | nil => intro x P _ _ y hy; cases hy
        | cons z r ih =>
          intro x P hP hc y hy
          obtain ⟨⟨p, q, hp, _, hqn, d, hd, hq⟩, hr⟩ := hc
          rw [hP] at hp; cases hp
          have hlt := h.edge hl hres hrank hP hd hq
          have hqz : sb.pm.pluginMap.get? (name2key z) = some q := by
            rw [← hqn, h.keyed _ _ hq]; exact hq
          rcases List.mem_cons.mp hy with rfl | hy
          · exact ⟨q, hqz, hlt⟩
          · obtain ⟨Q, hQ, hQl⟩ := ih z q hqz hr y hy
            exact ⟨Q, hQ, by omega⟩
      have drop : ∀ (l r : List Str) (x : Str), Chain sb.pm.pluginMap (l ++ x :: r) → Chain sb.pm.pluginMap (x :: r) := by
        intro l r x
        induction l with
        | nil => exact id
        | cons y l ih =>
          intro hc
          refine ih ?_
          cases l with
          | nil => cases r with
            | nil => exact trivial
            | cons z r => exact hc.2
          | cons z l => exact hc.2
      obtain ⟨x, hx, hxl⟩ := List.mem_map.mp hin
      obtain ⟨l1, l2, rfl⟩ := List.append_of_mem hx
      have hc : Chain sb.pm.pluginMap (x :: (l2 ++ [last])) := by
        refine drop l1 _ x ?_
        rw [hn] at hch
        simpa using hch
      have hxP : ∃ P, sb.pm.pluginMap.get? (name2key x) = some P := by
        cases l2 with
        | nil => obtain ⟨⟨p, q, hp, _⟩, _⟩ := hc; exact ⟨p, hp⟩
        | cons z r => obtain ⟨⟨p, q, hp, _⟩, _⟩ := hc; exact ⟨p, hp⟩
      obtain ⟨P, hP⟩ := hxP
      obtain ⟨Q, hQ, hlt⟩ := hdec _ x P hP hc last (by simp)
      rw [← hxl, hP] at hQ; cases hQ
      omega
    | hookErr n =>
      rcases hlast with ⟨q, hq, rfl, hu, _, hc⟩ | ⟨q, hq, v, rfl, hu, _, hc⟩ <;>
        obtain ⟨g, hg, a, ha, hm⟩ := hfresh q (hord q hq) hu <;> obtain ⟨_, h2, h3⟩ := hl.hooks g hg a ha
      · rw [hm.code, h2] at hc; cases hc
      · rw [hm.code, h3 v] at hc; cases hc
    | hookPanic n =>
      rcases hlast with ⟨q, hq, rfl, hu, _, hc⟩ | ⟨q, hq, rfl, hu, _, hc⟩ | ⟨q, hq, v, rfl, hu, _, hc⟩
      · obtain ⟨g, hg, a, ha, hm⟩ := hfresh q hq hu
        obtain ⟨⟨imp, himp, _⟩, h2, h3⟩ := hl.hooks g hg a ha
        rw [hm.code, himp] at hc; cases hc
      · obtain ⟨g, hg, a, ha, hm⟩ := hfresh q (hord q hq) hu
        obtain ⟨_, h2, h3⟩ := hl.hooks g hg a ha
        rw [hm.code, h2] at hc; cases hc
      · obtain ⟨g, hg, a, ha, hm⟩ := hfresh q (hord q hq) hu
        obtain ⟨_, h2, h3⟩ := hl.hooks g hg a ha
        rw [hm.code, h3 v] at hc; cases hc
    | badLiveFuncs n =>
      obtain ⟨q, hq, rfl, hc⟩ := hfail
      obtain ⟨⟨mm, h1⟩, _⟩ := h.maps hl (hord q hq)
      rw [h1] at hc; cases hc
    | badLiveTypes n =>
      obtain ⟨q, hq, rfl, hc⟩ := hfail
      obtain ⟨_, ⟨mm, h1⟩⟩ := h.maps hl (hord q hq)
      rw [h1] at hc; cases hc
    | dupLiveFunc n a b =>
      obtain ⟨x, y, before, mid, after, mx, my, he, _, _, h1, h2, h3, h4⟩ := hfail
      exact h4 ((h.live hl (hord x (by rw [he]; simp)) (hord y (by rw [he]; simp)) (hdup he)).1 mx my h1 h2 n h3)
    | dupLiveType n a b =>
      obtain ⟨x, y, before, mid, after, mx, my, he, _, _, h1, h2, h3, h4⟩ := hfail
      exact h4 ((h.live hl (hord x (by rw [he]; simp)) (hord y (by rw [he]; simp)) (hdup he)).2 mx my h1 h2 n h3)
    | rebuilt d n =>
      obtain ⟨P, Q, rfl, rfl, hP, hu, hq, x, hx, hxQ⟩ := hfail
      obtain ⟨k, hk⟩ := GoMap.mem_vals.mp hP
      obtain ⟨R, hR, hRu⟩ := h.keeps hl hk hu hx
      rw [hxQ] at hR; cases hR
      rw [hq] at hRu; cases hRu
    | importNotStructPtr n =>
      obtain ⟨q, hq, rfl, hu, imp, v, h1, h2, h3, h4⟩ := hfail
      obtain ⟨g, hg, a, ha, hm⟩ := hfresh q hq hu
      obtain ⟨⟨imp', himp, hor⟩, _⟩ := hl.hooks g hg a ha
      rw [hm.code, himp] at h1; cases h1
      rw [h2] at hor
      rcases hor with hor | ⟨w, id, hw, hor⟩
      · rw [h3] at hor; cases hor
      · cases hw; rw [hor] at h4; cases h4
    | anonymousField fn n =>
      obtain ⟨q, hq, rfl, hu, fd, hfd, rfl, ha⟩ := hfail
      rw [(hbind q hq hu fd hfd).1] at ha; cases ha
    | unknownDep fn n =>
      obtain ⟨q, hq, rfl, hu, fd, hfd, rfl, ha⟩ := hfail
      obtain ⟨_, Q, hQ, _⟩ := hbind q hq hu fd hfd
      rw [hQ] at ha; cases ha
    | depReloadable n d =>
      obtain ⟨q, hq, rfl, hu, hr, fd, hfd, Q', hQ', _, ha⟩ := hfail
      obtain ⟨_, Q, hQ, h1, _⟩ := hbind q hq hu fd hfd
      rw [hQ] at hQ'; cases hQ'
      rw [h1 hr] at ha; cases ha
    | notAssignable d n fn =>
      obtain ⟨q, hq, rfl, hu, fd, hfd, rfl, Q', v, hQ', _, hv, ha⟩ := hfail
      obtain ⟨_, Q, hQ, _, h1⟩ := hbind q hq hu fd hfd
      rw [hQ] at hQ'; cases hQ'
      unfold boundValue at hv
      split at hv
      · cases hv
      · rename_i hn
        rw [hv] at hn
        rw [(h1 v hv (by simpa using hn)).1] at ha; cases ha
    | _ => exact hfail
  | inr q =>
    cases q with
    | nilDeref =>
      obtain ⟨P, hP, hu, d, hd, hn⟩ := hfail
      obtain ⟨k, hk⟩ := GoMap.mem_vals.mp hP
      obtain ⟨R, hR, hRu⟩ := h.keeps hl hk hu hd
      rw [hn] at hR; cases hR
    | setUnexported =>
      obtain ⟨q, hq, hu, fd, hfd, hx, Q', v, hQ', hv⟩ := hfail
      obtain ⟨_, Q, hQ, _, h1⟩ := hbind q hq hu fd hfd
      rw [hQ] at hQ'; cases hQ'
      unfold boundValue at hv
      split at hv
      · cases hv
      · rename_i hn
        rw [hv] at hn
        exact absurd (h1 v hv (by simpa using hn)).2 hx
    | user =>
      obtain ⟨P, hP, hc⟩ := hfail
      obtain ⟨⟨mm, h1⟩, ⟨mm', h2⟩⟩ := h.maps hl (hord P hP)
      rcases hc with hc | hc
      · rw [h1] at hc; cases hc
      · rw [h2] at hc; cases hc
    | unknownNote => exact hfail
    | orderBroken => exact hfail

/-- The facts, for a load from files. -/
theorem late_of {s1 : LoadSt} {pm0 : Manager} (hgood : ∀ om, old = some om → GoodManager n0 om) (done : Stage1Done old n0 pm0 env.fs files s1)
    (same : SameMap s1.pm.pluginMap m) : Late (Offers env.fs old) old n0 files m := by
  have hk : Keyed m := same.keyed done.base.keyed
  refine ⟨hgood, hk, fun f u v P Q h h' => h.unique h', ?_, ?_, ?_, ?_⟩
  · intro f hf g hg u v P Q hP hQ he
    obtain ⟨P', hP', _, hm⟩ := made_from done same hf hP
    obtain ⟨Q', hQ', _, hm'⟩ := made_from done same hg hQ
    have h1 := hk _ _ hP'
    have h2 := hk _ _ hQ'
    rw [hm.name, he] at h1
    rw [hm'.name] at h2
    exact List.inj_on_of_nodup_map done.nodup hf hg (h1.symm.trans h2)
  · intro f P h
    cases h with
    | kept h =>
      obtain ⟨om, _, ho, hf, _⟩ := h
      exact ⟨om, _, ho, hf⟩
  · intro key P hP
    obtain ⟨f, hf, _, r⟩ := made_of done same hP
    exact ⟨f, hf, r⟩
  · intro f hf u a ha
    obtain ⟨P, hP, hu, hm⟩ := made_from done same hf ha
    refine ⟨P, ?_, hu, hm⟩
    rw [← hm.name, hk _ _ hP]; exact hP

theorem not_kept_or (fs : FS) (old : Option Manager) (f : Str) : NotKept fs old f ∨ ∃ P, KeptFor fs old f P := by
  by_cases h : ∃ P, KeptFor fs old f P
  · exact .inr h
  · left
    intro om P data ho hg hd
    by_contra hc
    refine h ⟨P, om, data, ho, hg, hd, ?_⟩
    cases hp : P.reloadable with
    | false => exact .inl rfl
    | true =>
      right
      by_contra hs
      exact hc ⟨hp, hs⟩

/-- The first stage of the load of a set without faults does not fail. -/
theorem no_stage1_failure {s : LoadSt} {f : Fail} (hl : Loadable env old files) (why : Stage1Fail old env.fs files s f) : False := by
  cases f with
  | inr q => exact why
  | inl e =>
    cases e with
    | duplicateName k =>
      have h1 : ∀ a, (files.map fileKey).count a ≤ 1 := List.nodup_iff_count_le_one.mp hl.names
      exact absurd (h1 k) (by have := why.2; omega)
    | readFile g => exact hl.readable g why.2.2.1 why.2.2.2
    | loading n e =>
      obtain ⟨_, g, hg, _, hn, hfault, _⟩ := why
      obtain ⟨hlow, hcopy, syms, code, ho, hcomp, ⟨r, hr⟩, x, hx⟩ := hl.usable g hg hn
      cases e with
      | copy => rw [FileFault, hcopy] at hfault; cases hfault
      | openFailed => rw [FileFault, ho] at hfault; cases hfault
      | lookup sym =>
        obtain ⟨syms', code', ho', t, ht, st, hst, h1, h2⟩ := hfault
        rw [ho] at ho'; cases ho'
        obtain ⟨st', hst', hor⟩ := hcomp sym t ht
        rw [hst] at hst'; cases hst'
        rcases hor with hor | ⟨e, he, hor⟩
        · rw [h1] at hor; cases hor
        · rw [h2 e he] at hor; cases hor
      | missing l =>
        obtain ⟨syms', code', ho', hl', hne⟩ := hfault
        rw [ho] at ho'; cases ho'
        refine hne ?_
        rw [hl']
        unfold missingSyms
        rw [List.filter_eq_nil_iff]
        intro sym hsym
        obtain ⟨⟨sym', t⟩, ht, rfl⟩ := List.mem_map.mp hsym
        obtain ⟨st, hst, _⟩ := hcomp sym' t ht
        simp [hst]
      | hookPanic n =>
        obtain ⟨_, syms', code', ho', _, hor⟩ := hfault
        rw [ho] at ho'; cases ho'
        rcases hor with h | h
        · rw [hr] at h; cases h
        · rw [hx] at h; cases h
      | _ => exact hfault
    | panicked c q =>
      obtain ⟨_, ⟨_, _, g, hg, hn, hlow⟩ | ⟨_, g, hg, hn, _, ho, _⟩⟩ := why
      · exact hlow (hl.usable g hg hn).1
      · obtain ⟨_, _, syms, code, ho', _⟩ := hl.usable g hg hn
        rw [ho] at ho'; cases ho'
    | _ => exact why

end

/-- A set of plugin files without faults loads. -/
theorem loadable_succeeds {cfg : Config} (hcfg : cfg.OK) (hst : cfg.static = none) {m : Machine} (h : Reachable cfg m) (env : Env) (k : Kind)
    (hext : cfg.hasNewExt = true → env.ext ≠ .panics) (hcb : ∀ c ∈ callbacks cfg env k, c.2 = .ok)
    {absDir : Str} {entries : List DirEntry} (hdir : env.dir = some (absDir, entries))
    (hwl : whitelistError cfg.whitelist (qualifying cfg.whitelist entries) = none) (hne : listedFiles cfg absDir entries ≠ [])
    (hl : Loadable env m.current (listedFiles cfg absDir entries)) :
    ∃ d pm, (plan cfg env k m.current m.next).res = .ok d ∧ .publish pm ∈ (plan cfg env k m.current m.next).acts := by
  have hv := view hcfg h env k
  have hgood := good_old hcfg h
  generalize plan cfg env k m.current m.next = p at *
  cases hv with
  | listErr e dyn why acts res =>
    rcases why with ⟨hd, _⟩ | ⟨a, b, hd, hw⟩
    · rw [hdir] at hd; cases hd
    · rw [hdir] at hd; cases hd; rw [hwl] at hw; cases hw
  | empty a b dyn dir wl hnil => rw [hdir] at dir; cases dir; exact absurd hnil hne
  | escaped ext panics => exact absurd panics (hext ext)
  | dynErr a b dyn dir wl hsome s0 sb f cr failed body acts res =>
    rw [hdir] at dir; cases dir
    exfalso
    cases failed with
    | early base why => exact no_stage1_failure hl why
    | late s1 done why =>
      exact (late_of hgood done why.frame.same).no_failure hl.toFits why
  | dynCb a b dyn dir wl hsome s0 s1 s cr done cbs n o rest split bad =>
    exact absurd (hcb (n, o) (by rw [split]; simp)) bad
  | dynOk a b dyn dir wl hsome s0 s1 s d cr done good details acts res =>
    exact ⟨d, s.pm, res, by rw [acts]; simp⟩
  | staticMissing sps e st => rw [hst] at st; cases st
  | staticErr sps sel st => rw [hst] at st; cases st
  | staticCb sps sel st => rw [hst] at st; cases st
  | staticOk sps sel st => rw [hst] at st; cases st

/-- **C54.** A set of plugin files without faults loads, whatever the history, the iteration orders of maps and the current manager are: the call returns no error and publishes a
manager. -/
theorem C54_loadable_succeeds {cfg : Config} (hcfg : cfg.OK) (hst : cfg.static = none) {m : Machine} (h : Reachable cfg m) (env : Env) (k : Kind)
    (hext : cfg.hasNewExt = true → env.ext ≠ .panics) (hcb : ∀ c ∈ callbacks cfg env k, c.2 = .ok)
    {absDir : Str} {entries : List DirEntry} (hdir : env.dir = some (absDir, entries))
    (hreal : RealEntries entries) (hnd : cfg.whitelist.Nodup) (hall : ∀ v ∈ cfg.whitelist, Present entries v) (hne : ∃ e ∈ entries, Considered cfg.whitelist e)
    (hl : Loadable env m.current (listedFiles cfg absDir entries)) :
    ∃ d pm, (plan cfg env k m.current m.next).res = .ok d ∧ .publish pm ∈ (plan cfg env k m.current m.next).acts := by
  refine loadable_succeeds hcfg hst h env k hext hcb hdir (whitelist_ok hreal hnd hall) ?_ hl
  obtain ⟨e, he, hc⟩ := hne
  have : joinPath absDir e.name ∈ listedFiles cfg absDir entries := List.mem_map.mpr ⟨e.name, mem_qualifying.mpr ⟨e, he, hc, rfl⟩, rfl⟩
  exact List.ne_nil_of_mem this

/-! ### C55 -/

theorem GoodManager.names_nodup {n : Nat} {om : Manager} (h : GoodManager n om) : (om.plugins.map (fun p => name2key p.name)).Nodup := by
  have hp : (om.ordered.map (fun p => name2key p.name)).Perm (om.pluginMap.vals.map (fun p => name2key p.name)) := h.ordered.map _
  refine hp.symm.nodup ?_
  have : om.pluginMap.vals.map (fun p => name2key p.name) = om.pluginMap.keys := by
    unfold GoMap.vals GoMap.keys
    rw [List.map_map]
    apply List.map_congr_left
    intro e he
    exact h.keyed e.1 e.2 (GoMap.get?_eq_some.mpr he)
  rw [this]
  exact om.pluginMap.nodup

theorem SameFiles.find {fs : FS} {om : Manager} {files : List Str} {n : Nat} (h : SameFiles fs om files) (hg : GoodManager n om) {f : Str} (hf : f ∈ files) :
    ∃ P, om.findPlugin (pluginName f) = some P := by
  have : name2key (pluginName f) ∈ om.plugins.map (fun p => name2key p.name) := h.same.mem_iff.mp (List.mem_map.mpr ⟨f, hf, rfl⟩)
  obtain ⟨P, hP, he⟩ := List.mem_map.mp this
  obtain ⟨k, hk⟩ := GoMap.mem_vals.mp (hg.ordered.mem_iff.mp hP)
  refine ⟨P, ?_⟩
  unfold Manager.findPlugin
  rw [← he, hg.keyed k P hk]; exact hk

theorem SameFiles.kept {fs : FS} {om : Manager} {files : List Str} {n : Nat} (h : SameFiles fs om files) (hg : GoodManager n om) {f : Str} (hf : f ∈ files) :
    ∃ P, om.findPlugin (pluginName f) = some P ∧ KeptFor fs (some om) f P ∧ Offers fs (some om) f true P := by
  obtain ⟨P, hP⟩ := h.find hg hf
  obtain ⟨data, hr, hw⟩ := h.contents f hf P hP
  have hk : KeptFor fs (some om) f P := by
    refine ⟨om, data, rfl, hP, hr, ?_⟩
    rcases hw with hw | hw
    · left
      have := (hg.faithful _ P hP).1
      rw [hw] at this; injection this with this; exact this.symm
    · exact .inr hw.symm
  exact ⟨P, hP, hk, .kept hk⟩

theorem SameFiles.not_new {fs : FS} {om : Manager} {files : List Str} {n : Nat} (h : SameFiles fs om files) (hg : GoodManager n om) {f : Str} (hf : f ∈ files) {P : Plugin}
    (ho : Offers fs (some om) f false P) : False := by
  obtain ⟨Q, _, _, hQ⟩ := h.kept hg hf
  have := (ho.unique hQ).1
  cases this

/-- Unchanged files are loadable. -/
theorem SameFiles.loadable {env : Env} {om : Manager} {files : List Str} {n : Nat} (h : SameFiles env.fs om files) (hg : GoodManager n om) : Loadable env (some om) files where
  names := h.same.symm.nodup hg.names_nodup
  readable := by
    intro f hf hn
    obtain ⟨P, hP, ⟨_, data, _, _, hr, _⟩, _⟩ := h.kept hg hf
    rw [hn] at hr; cases hr
  usable := by
    intro f hf hn
    obtain ⟨P, hP, ⟨om', data, ho, hf', hr, hw⟩, _⟩ := h.kept hg hf
    exfalso
    obtain ⟨h1, h2⟩ := hn om' P data ho hf' hr
    rcases hw with hw | hw
    · rw [h1] at hw; cases hw
    · exact h2 hw
  hooks := fun f hf P hP => (h.not_new hg hf hP).elim
  imports := fun f hf P hP => (h.not_new hg hf hP).elim
  keeps := by
    intro f hf P hP d hd
    cases hP with
    | kept hk =>
      obtain ⟨om', _, ho, hf', _, _⟩ := hk
      cases ho
      -- the dependency is in the manager, hence has a file
      have hmem := hg.ordered.mem_iff.mpr (GoMap.mem_vals.mpr ⟨_, hf'⟩)
      obtain ⟨before, after, he⟩ := List.append_of_mem hmem
      obtain ⟨q, _, hq⟩ := hg.topo before P after he d hd
      have hqm := hg.ordered.mem_iff.mpr (GoMap.mem_vals.mpr ⟨_, hq⟩)
      have : name2key q.name ∈ files.map (fun f => name2key (pluginName f)) := h.same.mem_iff.mpr (List.mem_map.mpr ⟨q, hqm, rfl⟩)
      obtain ⟨g, hgf, hge⟩ := List.mem_map.mp this
      obtain ⟨Q, hQ, _, hQo⟩ := h.kept hg hgf
      have hqk := hg.keyed _ q hq
      have : Q = q := by
        unfold Manager.findPlugin at hQ
        rw [hge, hqk, hq] at hQ; cases hQ; rfl
      subst this
      exact ⟨g, hgf, _, hQo, hqk⟩
  acyclic := ⟨fun _ => 0, fun f hf P hP => (h.not_new hg hf hP).elim⟩
  live := fun f hf P hP => (h.not_new hg hf hP).elim
  disjoint := by
    intro f hf g hg' _ u v P Q hP hQ huv
    rcases huv with rfl | rfl
    · exact (h.not_new hg hf hP).elim
    · exact (h.not_new hg hg' hQ).elim

/-- **C55.** If the plugin files are those of the current manager and none has changed, the call succeeds (whatever the files' functions would do now, and whatever iteration orders
are), keeps every instance, opens no file and calls no function of any plugin. -/
theorem C55_unchanged_reload {cfg : Config} (hcfg : cfg.OK) (hst : cfg.static = none) {m : Machine} (h : Reachable cfg m) (env : Env) (k : Kind)
    (hext : cfg.hasNewExt = true → env.ext ≠ .panics) (hcb : ∀ c ∈ callbacks cfg env k, c.2 = .ok)
    {absDir : Str} {entries : List DirEntry} (hdir : env.dir = some (absDir, entries))
    (hreal : RealEntries entries) (hnd : cfg.whitelist.Nodup) (hall : ∀ v ∈ cfg.whitelist, Present entries v) (hne : ∃ e ∈ entries, Considered cfg.whitelist e)
    {om : Manager} (hc : m.current = some om) (hsame : SameFiles env.fs om (listedFiles cfg absDir entries)) :
    ∃ d pm, (plan cfg env k m.current m.next).res = .ok d ∧ .publish pm ∈ (plan cfg env k m.current m.next).acts ∧
      (pm.plugins.map (·.inst)).Perm (om.plugins.map (·.inst)) ∧
      (∀ name, match om.findPlugin name with
        | none => pm.findPlugin name = none
        | some P => ∃ p, pm.findPlugin name = some p ∧ KeptCopy P p) ∧
      (∀ a ∈ (plan cfg env k m.current m.next).acts, hookOf a = none) ∧
      openedFiles (plan cfg env k m.current m.next).acts = [] := by
  have hg := good_old hcfg h om hc
  have hk : refused cfg k = false := by cases k <;> simp [refused, hst]
  obtain ⟨d, pm, hres, hp⟩ := C54_loadable_succeeds hcfg hst h env k hext hcb hdir hreal hnd hall hne (by rw [hc]; exact hsame.loadable hg)
  obtain ⟨absDir', entries', hdir', hperm⟩ := C15_exactly_listed hcfg hst h env hp
  rw [hdir] at hdir'; cases hdir'
  -- the plugin of a listed file
  have hcopy : ∀ f ∈ listedFiles cfg absDir entries, ∃ P p, om.findPlugin (pluginName f) = some P ∧ pm.findPlugin (pluginName f) = some p ∧ KeptCopy P p := by
    intro f hf
    obtain ⟨data, p, hr, hfind, h1, h2, _⟩ := C15_kept_or_renewed hcfg hst h env hp hdir hf
    obtain ⟨P, hP, _⟩ := hsame.kept hg hf
    have hprev : previous m f = some P := by unfold previous; rw [hc]; exact hP
    obtain ⟨data', hr', hw⟩ := hsame.contents f hf P hP
    rw [hr] at hr'; cases hr'
    refine ⟨P, p, hP, hfind, ?_⟩
    by_cases hn : NotReloadable P
    · exact (h1 P hprev hn).1
    · rcases hw with hw | hw
      · exact absurd hw hn
      · exact (h2 P hprev hn hw).1
  have hgood : GoodManager (plan cfg env k m.current m.next).next pm := by
    obtain ⟨hb, s0, s1, s, d', hs⟩ := (view hcfg h env k).published hk hp
    rw [hb, hs.built, hs.next]; exact hs.good
  have hnames : (pm.plugins.map (fun p => name2key p.name)).Perm (om.plugins.map (fun p => name2key p.name)) := hperm.trans hsame.same
  have hfind : ∀ name, match om.findPlugin name with
      | none => pm.findPlugin name = none
      | some P => ∃ p, pm.findPlugin name = some p ∧ KeptCopy P p := by
    intro name
    have hmem : ∀ {n : Nat} {mm : Manager} {q : Plugin}, GoodManager n mm → mm.findPlugin name = some q → name2key name ∈ mm.plugins.map (fun p => name2key p.name) := by
      intro n mm q hgm hq
      exact List.mem_map.mpr ⟨q, hgm.ordered.mem_iff.mpr (GoMap.mem_vals.mpr ⟨_, hq⟩), hgm.keyed _ q hq⟩
    cases hP : om.findPlugin name with
    | none =>
      cases hq : pm.findPlugin name with
      | none => rfl
      | some q =>
        exfalso
        obtain ⟨P, hPm, he⟩ := List.mem_map.mp (hnames.mem_iff.mp (hmem hgood hq))
        obtain ⟨key, hkey⟩ := GoMap.mem_vals.mp (hg.ordered.mem_iff.mp hPm)
        have := hg.keyed key P hkey
        unfold Manager.findPlugin at hP
        rw [← he, this, hkey] at hP; cases hP
    | some P =>
      obtain ⟨f, hf, he⟩ := List.mem_map.mp (hsame.same.mem_iff.mpr (hmem hg hP))
      obtain ⟨P', p, h1, h2, h3⟩ := hcopy f hf
      unfold Manager.findPlugin at h1 h2 hP ⊢
      rw [he] at h1 h2
      rw [hP] at h1; cases h1
      exact ⟨p, h2, h3⟩
  have hold : ∀ q ∈ pm.plugins, ∃ P ∈ om.plugins, KeptCopy P q := by
    intro q hq
    obtain ⟨key, hkey⟩ := GoMap.mem_vals.mp (hgood.ordered.mem_iff.mp hq)
    obtain ⟨P, hPm, he⟩ := List.mem_map.mp (hnames.mem_iff.mp (List.mem_map.mpr ⟨q, hq, rfl⟩))
    obtain ⟨key', hkey'⟩ := GoMap.mem_vals.mp (hg.ordered.mem_iff.mp hPm)
    have h1 := hg.keyed key' P hkey'
    have h2 := hgood.keyed key q hkey
    have := hfind P.name
    unfold Manager.findPlugin at this
    rw [h1, hkey'] at this
    obtain ⟨p, hp', hcp⟩ := this
    have : key' = key := by rw [← h1, ← h2]; exact he
    rw [this, hkey] at hp'; cases hp'
    exact ⟨P, hPm, hcp⟩
  refine ⟨d, pm, hres, hp, ?_, hfind, ?_, ?_⟩
  · -- same names, and the instance is determined by the name
    have hnd1 : (pm.plugins.map (·.inst)).Nodup := (hgood.ordered.map Plugin.inst).symm.nodup hgood.nodup
    have hnd2 : (om.plugins.map (·.inst)).Nodup := (hg.ordered.map Plugin.inst).symm.nodup hg.nodup
    rw [List.perm_ext_iff_of_nodup hnd1 hnd2]
    intro i
    constructor
    · intro hi
      obtain ⟨q, hq, rfl⟩ := List.mem_map.mp hi
      obtain ⟨P, hP, hcp⟩ := hold q hq
      exact List.mem_map.mpr ⟨P, hP, by rw [hcp]⟩
    · intro hi
      obtain ⟨P, hP, rfl⟩ := List.mem_map.mp hi
      obtain ⟨key, hkey⟩ := GoMap.mem_vals.mp (hg.ordered.mem_iff.mp hP)
      have h1 := hg.keyed key P hkey
      have := hfind P.name
      unfold Manager.findPlugin at this
      rw [h1, hkey] at this
      obtain ⟨p, hp', hcp⟩ := this
      exact List.mem_map.mpr ⟨p, hgood.ordered.mem_iff.mpr (GoMap.mem_vals.mpr ⟨_, hp'⟩), by rw [hcp]⟩
  · intro a ha
    cases hh : hookOf a with
    | none => rfl
    | some e =>
      exfalso
      obtain ⟨i, g⟩ := e
      obtain ⟨q, hq, hn, _⟩ := (C03_hooks_of_publishing_call hcfg h env hk hp).2 a ha i g hh
      obtain ⟨P, hP, hcp⟩ := hold q hq
      have hin : q.inst ∈ om.insts := by
        rw [hcp]
        exact List.mem_map.mpr ⟨P, hg.ordered.mem_iff.mp hP, rfl⟩
      unfold isNew at hn
      rw [hc] at hn
      simp [hin] at hn
  · rw [List.eq_nil_iff_forall_not_mem]
    intro f hf
    obtain ⟨hfl, hn⟩ := ((C15_opened hcfg hst h env hp hdir).1 f).mp hf
    obtain ⟨P, hP, ⟨om', data, ho, hf', hr, hw⟩, _⟩ := hsame.kept hg hfl
    rw [hc] at hn
    obtain ⟨h1, h2⟩ := hn om' P data ho hf' hr
    rcases hw with hw | hw
    · rw [h1] at hw; cases hw
    · exact h2 hw

end

section Examples
open Demo
attribute [local instance] Demo.rt

theorem ex_files : listedFiles cfg "/p".toList (both.map (fun n => ⟨n, false⟩)) = [appFile, baseFile] := by decide +kernel

private theorem ex_ne : appFile ≠ baseFile := by decide

/-- What the two files offer to a first load. -/
private theorem ex_offers {f : Str} (hf : f ∈ [appFile, baseFile]) {u : Bool} {P : Plugin} (h : Offers env1.fs none f u P) :
    u = false ∧ P.deps = [] ∧ P.reloadable = true ∧
      ((f = appFile ∧ P.name = "app".toList ∧ P.code = goodApp ∧ P.exported = some ⟨.func 2, false, 2⟩) ∨
        (f = baseFile ∧ P.name = "base".toList ∧ P.code = goodBase ∧ P.exported = some ⟨.func 1, false, 1⟩)) := by
  cases h with
  | kept h => obtain ⟨om, _, ho, _⟩ := h; cases ho
  | fresh hn hr ho h1 h2 =>
    simp only [List.mem_cons, List.not_mem_nil, or_false] at hf
    rcases hf with rfl | rfl
    · have : env1.fs.openPlugin appFile = .image syms goodApp := rfl
      rw [this] at ho; cases ho
      cases h1; cases h2
      exact ⟨rfl, rfl, rfl, .inl ⟨rfl, (by decide +kernel : pluginName appFile = "app".toList), rfl, rfl⟩⟩
    · have : env1.fs.openPlugin baseFile = .image syms goodBase := rfl
      rw [this] at ho; cases ho
      cases h1; cases h2
      exact ⟨rfl, rfl, rfl, .inr ⟨rfl, (by decide +kernel : pluginName baseFile = "base".toList), rfl, rfl⟩⟩

private theorem ex_complete : Complete syms := by
  intro sym sig h
  refine ⟨sig.typ, ?_, .inl (by simp [GoRuntime.assignable])⟩
  have : ∀ e ∈ requiredSignatures, syms e.1 = some e.2.typ := by decide +kernel
  exact this (sym, sig) h

private theorem ex_base : Offers env1.fs none baseFile false
    { inst := 0, name := pluginName baseFile, file := baseFile, sha := GoRuntime.sha1 10, note := .none, unchanged := false, syms := some syms,
      code := goodBase, deps := [], exported := some ⟨.func 1, false, 1⟩, reloadable := true, bound := [] } :=
  .fresh (syms := syms) (code := goodBase) (fun om _ _ h => by cases h) (by decide +kernel) rfl rfl rfl

private theorem ex_app_field {P : Plugin} {fd : Field} (hc : P.code = goodApp) (h : ImportField P fd) : fd = baseField := by
  obtain ⟨imp, h1, _, h2⟩ := h
  rw [hc] at h1
  cases h1
  simpa using h2

private theorem ex_base_field {P : Plugin} {fd : Field} (hc : P.code = goodBase) (h : ImportField P fd) : False := by
  obtain ⟨imp, h1, h0, _⟩ := h
  rw [hc] at h1
  cases h1
  cases h0

private theorem ex_disjoint {a b : Str} {v w : Val} (h : a ≠ b) : Disjoint (.ret (some (GoMap.empty.insert a v))) (.ret (some (GoMap.empty.insert b w))) := by
  intro x y hx hy n hn
  cases hx; cases hy
  rw [GoMap.get?_insert] at hn ⊢
  by_cases hb : n = b
  · subst hb
    rw [if_neg (fun e => h e.symm)] at hn
    exact absurd rfl hn
  · rw [if_neg hb]; rfl

/-- The hypotheses of C54 are met: two plugins, one importing the other. -/
theorem ex_loadable : Loadable env1 none [appFile, baseFile] where
  names := by decide +kernel
  readable := by decide +kernel
  usable := by
    intro f hf _
    simp only [List.mem_cons, List.not_mem_nil, or_false] at hf
    rcases hf with rfl | rfl
    · exact ⟨by decide +kernel, rfl, syms, goodApp, rfl, ex_complete, ⟨_, rfl⟩, ⟨_, rfl⟩⟩
    · exact ⟨by decide +kernel, rfl, syms, goodBase, rfl, ex_complete, ⟨_, rfl⟩, ⟨_, rfl⟩⟩
  hooks := by
    intro f hf P h
    obtain ⟨_, _, _, ⟨_, _, hc, _⟩ | ⟨_, _, hc, _⟩⟩ := ex_offers hf h
    · rw [hc]; exact ⟨⟨_, rfl, .inr ⟨_, _, rfl, rfl⟩⟩, rfl, fun _ => rfl⟩
    · rw [hc]; exact ⟨⟨_, rfl, .inl rfl⟩, rfl, fun _ => rfl⟩
  imports := by
    intro f hf P h fd hfd _
    obtain ⟨_, _, hr, ⟨_, _, hc, _⟩ | ⟨_, _, hc, _⟩⟩ := ex_offers hf h
    · obtain rfl := ex_app_field hc hfd
      refine ⟨rfl, baseFile, by simp, false, _, ex_base, by decide +kernel, fun h => (by rw [hr] at h; cases h), ?_⟩
      intro v hv _
      cases hv
      exact ⟨by decide +kernel, exportedName_iff.mp (by decide +kernel)⟩
    · exact (ex_base_field hc hfd).elim
  keeps := fun f hf P h => by cases (ex_offers hf h).1
  acyclic := by
    refine ⟨fun k => if k = "app".toList then 1 else 0, ?_⟩
    intro f hf P h fd hfd _ g hg Q hQ hn
    obtain ⟨_, _, _, ⟨_, hname, hc, _⟩ | ⟨_, _, hc, _⟩⟩ := ex_offers hf h
    · obtain rfl := ex_app_field hc hfd
      rw [hn, hname]
      decide +kernel
    · exact (ex_base_field hc hfd).elim
  live := by
    intro f hf P h
    obtain ⟨_, _, _, ⟨_, _, hc, _⟩ | ⟨_, _, hc, _⟩⟩ := ex_offers hf h
    · rw [hc]; exact ⟨⟨_, rfl⟩, ⟨_, rfl⟩⟩
    · rw [hc]; exact ⟨⟨_, rfl⟩, ⟨_, rfl⟩⟩
  disjoint := by
    intro f hf g hg hne u v P Q hP hQ _
    obtain ⟨_, _, _, ⟨rfl, _, hc, _⟩ | ⟨rfl, _, hc, _⟩⟩ := ex_offers hf hP <;>
      obtain ⟨_, _, _, ⟨rfl, _, hc', _⟩ | ⟨rfl, _, hc', _⟩⟩ := ex_offers hg hQ
    · exact absurd rfl hne
    · rw [hc, hc']
      refine ⟨?_, ?_⟩
      · exact ex_disjoint (by decide +kernel)
      · intro x y hx hy n h; cases hx; exact absurd rfl h
    · rw [hc, hc']
      refine ⟨?_, ?_⟩
      · exact ex_disjoint (by decide +kernel)
      · intro x y hx hy n h; cases hx; exact absurd rfl h
    · exact absurd rfl hne

/-- The hypotheses of C54 are met by the first load of the example program. -/
example : cfg.OK ∧ cfg.static = none ∧ Reachable cfg .init ∧ (cfg.hasNewExt = true → env1.ext ≠ .panics) ∧ (∀ c ∈ callbacks cfg env1 .load, c.2 = .ok) ∧
    env1.dir = some ("/p".toList, both.map (fun n => ⟨n, false⟩)) ∧ RealEntries (both.map (fun n => ⟨n, false⟩)) ∧
    cfg.whitelist.Nodup ∧ (∀ v ∈ cfg.whitelist, Present (both.map (fun n => ⟨n, false⟩)) v) ∧ (∃ e ∈ both.map (fun n => ⟨n, false⟩), Considered cfg.whitelist e) ∧
    Loadable env1 Machine.init.current (listedFiles cfg "/p".toList (both.map (fun n => ⟨n, false⟩))) := by
  refine ⟨cfg_ok, rfl, .init, fun h => (by cases h), by decide +kernel, rfl, by unfold RealEntries; decide +kernel, .nil, fun v h => (by cases h),
    ⟨⟨"app.so".toList, false⟩, by simp [both], rfl, by decide +kernel, .inl rfl⟩, ?_⟩
  · rw [ex_files]; exact ex_loadable

/-- The hypotheses of C55 are met after the first load, with the files as they are. -/
example : ∃ om, m1.current = some om ∧ SameFiles env1.fs om (listedFiles cfg "/p".toList (both.map (fun n => ⟨n, false⟩))) := by
  have h1 : m1.current.isSome = true := by decide +kernel
  obtain ⟨om, hom⟩ := Option.isSome_iff_exists.mp h1
  have h2 : (m1.current.map (fun om => om.plugins.map (fun p => name2key p.name))) = some ["base".toList, "app".toList] := by decide +kernel
  have h3 : (m1.current.map (fun om => (om.findPlugin (pluginName appFile)).map (·.sha))) = some (some 20) := by decide +kernel
  have h4 : (m1.current.map (fun om => (om.findPlugin (pluginName baseFile)).map (·.sha))) = some (some 10) := by decide +kernel
  rw [hom] at h2 h3 h4
  simp only [Option.map_some, Option.some.injEq] at h2 h3 h4
  refine ⟨om, hom, ?_, ?_⟩
  · rw [ex_files, h2]
    have : [appFile, baseFile].map (fun f => name2key (pluginName f)) = ["app".toList, "base".toList] := by decide +kernel
    rw [this]
    exact .swap _ _ _
  · intro f hf P hP
    rw [ex_files] at hf
    simp only [List.mem_cons, List.not_mem_nil, or_false] at hf
    rcases hf with rfl | rfl
    · rw [hP] at h3
      simp only [Option.map_some, Option.some.injEq] at h3
      exact ⟨20, by decide +kernel, .inr (by rw [h3]; rfl)⟩
    · rw [hP] at h4
      simp only [Option.map_some, Option.some.injEq] at h4
      exact ⟨10, by decide +kernel, .inr (by rw [h4]; rfl)⟩

end Examples

end Hotswap
