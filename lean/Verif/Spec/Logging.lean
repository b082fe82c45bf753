import Verif.Model.Logging
import Verif.Model.FreeLog
import Verif.Spec.LoadErr
import Verif.Spec.Trace

/-!
# What the log of a load says, and what a logger that panics does
-/

namespace Hotswap

variable [GoRuntime]

/-- A logger that never panics. -/
def quiet : Logger := fun _ => false

/-- A nil logger: every method panics. -/
def nilLogger : Logger := fun _ => true

/-- The plugin that `old` has for the file `f`. -/
def hadFor (old : Option Manager) (f : Str) : Option Plugin := old.bind (fun om => om.pluginMap.get? (fileKey f))

/-- The three lists say what happens to the files. -/
structure StatsTrue (old : Option Manager) (fs : FS) (files : List Str) (a b c : List Str) : Prop where
  /-- the plugins of the files that the old manager has and that are not reloadable -/
  notReloadable : ∀ n, n ∈ a ↔ ∃ f ∈ files, ∃ q, hadFor old f = some q ∧ q.reloadable = false ∧ q.name = n
  /-- the reloadable plugins of the files whose contents have not changed -/
  unchanged : ∀ n, n ∈ b ↔ ∃ f ∈ files, ∃ q d, hadFor old f = some q ∧ q.reloadable = true ∧ fs.readFile f = some d ∧ GoRuntime.sha1 d = q.sha ∧ q.name = n
  /-- the plugins of the files that are new or have changed -/
  toLoad : ∀ n, n ∈ c ↔ ∃ f ∈ files, ∃ d, fs.readFile f = some d ∧ (∀ q, hadFor old f = some q → q.reloadable = true ∧ GoRuntime.sha1 d ≠ q.sha) ∧ pluginName f = n
  sorted : c.Pairwise (· ≤ ·)
  /-- each file is in exactly one of the lists -/
  partition : ((a ++ b ++ c).map name2key).Perm (files.map fileKey)

/-- A line about a hook. -/
def Line.isHook : Line → Bool
  | .onLoad _ | .onInit _ => true
  | _ => false

/-- The line that announces an action; `nm` gives the names of the plugins. -/
def announces (nm : Nat → Str) : Act → Option Line
  | .callOnLoad i _ => some (.onLoad (nm i))
  | .callOnInit i _ _ => some (.onInit (nm i))
  | _ => none

/-- The announcements of all actions, each with the number of actions before it. -/
def announced (nm : Nat → Str) (k : Nat) (l : List Act) : List (Nat × Line) :=
  (l.zipIdx k).filterMap (fun x => (announces nm x.1).map (fun n => (x.2, n)))

/-- The error that a load returns if the logger panics when it is given the line. -/
def Line.err : Line → Err
  | .stats _ _ _ => .panicked none .user
  | .onLoad n => .hookPanic n
  | .onInit n => .hookPanic n
  | .static => .panicked none .user

/-- The call `q` is the call `p` up to the moment when the line that is written after `k` actions makes the logger panic: it then returns an error and releases everything it has taken. -/
structure CutAt (p : Plan) (k : Nat) (l : Line) (q : Plan) : Prop where
  res : q.res = .err l.err
  pos : k ≤ p.acts.length
  acts : ∃ rel, q.acts = p.acts.take k ++ rel.map Act.release ∧ (acquired (p.acts.take k)).Perm rel ∧ rel.Nodup
  early : ∀ a ∈ p.acts.take k, a.stage ≤ 5

/-- `nm` gives the names of the plugins of the manager. -/
def NamesOf (nm : Nat → Str) (pm : Manager) : Prop := ∀ p ∈ pm.pluginMap.vals, nm p.inst = p.name

/-- The first line is the line about the files, it is true, and it is written after the references on kept plugins have been taken and before anything else is done; the other lines are about hooks. -/
def StatsFirst (old : Option Manager) (fs : FS) (files : List Str) (acts : List Act) (lines : List (Nat × Line)) : Prop :=
  ∃ k a b c rest, lines = (k, .stats a b c) :: rest ∧ (∀ x ∈ rest, x.2.isHook = true) ∧ StatsTrue old fs files a b c ∧
    k ≤ acts.length ∧ (∀ x ∈ acts.take k, ∃ i, x = .inc i) ∧ ∀ x ∈ acts.drop k, ∀ i, x ≠ .inc i

/-- Is it a callback, or the publication? -/
def Act.outer : Act → Prop
  | .callback _ _ _ | .publish _ => True
  | _ => False

/-- The last line is the line about static linking, and it is written immediately before the first callback or, if there is none, before the publication; the other lines are about hooks. -/
def StaticLast (acts : List Act) (lines : List (Nat × Line)) : Prop :=
  ∃ hl k a, lines = hl ++ [(k, .static)] ∧ (∀ x ∈ hl, x.2.isHook = true) ∧ acts[k]? = some a ∧ a.outer ∧ ∀ x ∈ acts.take k, ¬ x.outer

/-- `n` is the first line that makes the logger panic. -/
def PanicsFirst (lg : Logger) (n : Nat) : Prop := lg n = true ∧ ∀ i, i < n → lg i = false

/-- A manager that can be released (it has been published, or a load has failed and left it behind): the keys are those of the names, no instance occurs twice, and the order is complete or has not been established. -/
structure Releasable (pm : Manager) : Prop where
  keyed : Keyed pm.pluginMap
  nodup : pm.insts.Nodup
  order : pm.ordered = [] ∨ pm.ordered.Perm pm.pluginMap.vals

/-- The plugin that is announced. -/
def freeingName (x : FreeLine × Bool) : Option Str :=
  match x.1 with
  | .freeing n => some n
  | .failed _ => none

/-- What the release of the plugins `ps` (in this order) has done, if it has begun in the state `s` and ended in `s'`; `esc`: a panic has left it. -/
structure FreeRun (ps : List Plugin) (s s' : FreeSt) (esc : Bool) (pre post : List Plugin) (nl : List (FreeLine × Bool)) : Prop where
  /-- `pre` has been visited, `post` has not -/
  split : ps = pre ++ post
  /-- these lines have been written -/
  lines : s'.lines = s.lines ++ nl
  /-- the counts of the visited plugins, and no others, have been decremented -/
  refs : ∀ i, s'.refs i = if i ∈ pre.map (·.inst) then s.refs i - 1 else s.refs i
  /-- the plugins whose count has become zero are announced, in this order -/
  announced : nl.filterMap freeingName = (pre.filter (fun p => s.refs p.inst ≤ 1)).map (·.name)
  /-- `OnFree` has been called on the announced plugins that have not been freed before, unless the logger has panicked at the announcement -/
  called : s'.called = s.called ++ (pre.filter (fun p => s.refs p.inst ≤ 1 ∧ s.used p.inst = false ∧ (FreeLine.freeing p.name, false) ∈ nl)).map (·.inst)
  /-- a panic is reported if the announcement or `OnFree` has panicked -/
  failed : ∀ n, (∃ b, (FreeLine.failed n, b) ∈ nl) ↔ ∃ p ∈ pre, p.name = n ∧ s.refs p.inst ≤ 1 ∧ ((FreeLine.freeing n, true) ∈ nl ∨ s.used p.inst = false ∧ p.code.onFreePanics = true)
  /-- if no panic leaves it, all plugins have been visited, and the logger has not panicked at a report -/
  all : esc = false → post = [] ∧ ∀ n, (FreeLine.failed n, true) ∉ nl
  /-- if a panic leaves it, it is that of the logger at the report about the plugin visited last -/
  stop : esc = true → ∃ pre0 p nl0, pre = pre0 ++ [p] ∧ nl = nl0 ++ [(FreeLine.failed p.name, true)] ∧ ∀ n, (FreeLine.failed n, true) ∉ nl0

end Hotswap
