import Verif.Go.Str

/-!
# The build command, its signal goroutine and the temporary directory (cli/hotswap/cmd/build.go:144-313, 356-360)

The state machine from line 266 on. The work of the build is a list of operations; each of them may fail, i.e. panic. `os.RemoveAll` and `os.MkdirAll` are atomic.
-/

namespace Hotswap.Cli.Exec

/-- What the build does, as far as the temporary directory and interrupts are concerned. In a static build the "temporary directory" is the plugin's own directory (build.go:254-258). -/
inductive Op where
  /-- `os.MkdirAll` in the temporary directory: `collectFiles` (build.go:740) and `genHotswapBureau` (build.go:910); creates what is missing above it, too -/
  | mkdir
  /-- writing a file in the temporary directory (build.go:914, 958, 991); fails if it is not there -/
  | write
  /-- `copyFiles` (build.go:764-844): writes; two failures may crash the program (C43) -/
  | copy
  /-- `os.Chdir` (build.go:1009); fails if the directory is not there -/
  | chdir
  /-- `go build` in the temporary directory (build.go:700-708); fails if it is not there -/
  | build
  /-- `select` on `interruptProgram` with a `default` (build.go:1038-1042, 1135-1139): if SIGINT has been handled, `completePlugin` returns -/
  | check
  /-- `completePlugin` (build.go:1003-1182) returns -/
  | ret
  /-- anything else: parsing, loading and reading packages, removing old generated files, files outside the directory -/
  | other
  deriving DecidableEq, Repr

/-- The operations that need the directory. -/
def Op.needsDir : Op → Bool
  | .write | .copy | .chdir | .build => true
  | _ => false

inductive Sig where
  | int
  | term
  | quit
  deriving DecidableEq, Repr

/-- Where the main goroutine is. -/
inductive Main where
  /-- working; the operations that remain -/
  | work (rest : List Op)
  /-- in the deferred function (build.go:285-291) before the `select`; `ok`: no panic -/
  | deferred (ok : Bool)
  /-- at `<-done` (build.go:290) -/
  | waiting (ok : Bool)
  /-- the process has ended; `ok`: exit code 0 -/
  | exited (ok : Bool)
  /-- the process was killed by a signal or by a panic in another goroutine -/
  | killed
  deriving DecidableEq, Repr

/-- Where the signal goroutine (build.go:270-284) is. -/
inductive Watch where
  | waiting
  /-- received, before `signal.Reset` (build.go:274) -/
  | received (x : Sig)
  /-- before `removeTmpDir` (build.go:282) -/
  | removing
  /-- `done` is closed -/
  | done
  deriving DecidableEq, Repr

structure St where
  main : Main
  watch : Watch
  /-- the buffer of `chSignal` (capacity 1) -/
  buf : Option Sig
  /-- has `signal.Reset` been called? Then signals have their default effect again. -/
  reset : Bool
  /-- is `interruptProgram` closed? -/
  interrupt : Bool
  /-- does the temporary directory exist? -/
  dir : Bool
  /-- history, not in the code: a signal was sent to the process -/
  signalled : Bool
  /-- history, not in the code: a directory was created after `removeTmpDir` -/
  recreated : Bool
  /-- history, not in the code: the operations that have been completed -/
  completed : List Op
  deriving DecidableEq, Repr

/-- build.go:266-284. `pre`: does the directory exist? In a dynamic build it does not: it has been removed, if it was there (build.go:249-253). -/
def St.init (pre : Bool) (body : List Op) : St := ⟨.work body, .waiting, none, false, false, pre, false, false, []⟩

/-- The main goroutine can go on. -/
def St.alive (s : St) : Prop := s.main ≠ .killed ∧ ∀ ok, s.main ≠ .exited ok

/-- One step; `leave` is `leaveTemps` after build.go:260-264. -/
inductive Step (leave : Bool) : St → St → Prop
  /-- a directory is created -/
  | mkdir {s : St} {r : List Op} : s.main = .work (.mkdir :: r) →
      Step leave s { s with main := .work r, dir := true, recreated := s.recreated || s.watch == .done, completed := s.completed ++ [.mkdir] }
  /-- something that needs the directory succeeds -/
  | inDir {s : St} {o : Op} {r : List Op} : s.main = .work (o :: r) → o.needsDir = true → s.dir = true →
      Step leave s { s with main := .work r, completed := s.completed ++ [o] }
  /-- something else succeeds -/
  | other {s : St} {o : Op} {r : List Op} : s.main = .work (o :: r) → (o = .other ∨ o = .ret) →
      Step leave s { s with main := .work r, completed := s.completed ++ [o] }
  /-- the `default` of a check -/
  | pass {s : St} {r : List Op} : s.main = .work (.check :: r) → s.interrupt = false →
      Step leave s { s with main := .work r, completed := s.completed ++ [.check] }
  /-- a check after SIGINT: `completePlugin` returns without an error; the rest of it is not done -/
  | cut {s : St} {a r : List Op} : s.main = .work (.check :: a ++ .ret :: r) → .ret ∉ a → s.interrupt = true →
      Step leave s { s with main := .work (.ret :: r) }
  /-- after SIGINT the workers of `copyFiles` may end early (build.go:811); that is no error -/
  | cutCopy {s : St} {r : List Op} : s.main = .work (.copy :: r) → s.interrupt = true → Step leave s { s with main := .work r }
  /-- any operation may fail; the panic runs the deferred functions -/
  | panic {s : St} {o : Op} {r : List Op} : s.main = .work (o :: r) → o ≠ .check → o ≠ .ret → Step leave s { s with main := .deferred false }
  /-- a crash of the workers ends the process at once -/
  | crash {s : St} {r : List Op} : s.main = .work (.copy :: r) → Step leave s { s with main := .killed }
  /-- the work is done -/
  | finish {s : St} : s.main = .work [] → Step leave s { s with main := .deferred true }
  /-- build.go:286-289: the send, if there is room -/
  | quit {s : St} {ok : Bool} : s.main = .deferred ok → Step leave s { s with main := .waiting ok, buf := some (s.buf.getD .quit) }
  /-- build.go:290, then the end of the program: exit code 1 after a panic (build.go:145-154) -/
  | exit {s : St} {ok : Bool} : s.main = .waiting ok → s.watch = .done → Step leave s { s with main := .exited ok }
  /-- build.go:273 -/
  | receive {s : St} {x : Sig} : s.alive → s.watch = .waiting → s.buf = some x → Step leave s { s with watch := .received x, buf := none }
  /-- build.go:274-281 -/
  | reset {s : St} {x : Sig} : s.alive → s.watch = .received x →
      Step leave s { s with watch := .removing, reset := true, interrupt := s.interrupt || x == .int }
  /-- build.go:282, 356-360, then `close(done)` -/
  | remove {s : St} : s.alive → s.watch = .removing → Step leave s { s with watch := .done, dir := s.dir && leave }

/-- Signals from outside: SIGINT or SIGTERM. -/
inductive Env : St → St → Prop
  /-- `signal.Notify`: delivered if there is room in the buffer, else dropped -/
  | notify {s : St} {x : Sig} : s.alive → x ≠ .quit → s.reset = false → Env s { s with buf := some (s.buf.getD x), signalled := true }
  /-- after `signal.Reset` a signal kills the process -/
  | kill {s : St} : s.alive → s.reset = true → Env s { s with main := .killed, signalled := true }

/-- The states that can occur, with the number of steps of the program so far. -/
inductive Run (leave pre : Bool) (body : List Op) : Nat → St → Prop
  | init : Run leave pre body 0 (St.init pre body)
  | step {n : Nat} {s t : St} : Run leave pre body n s → Step leave s t → Run leave pre body (n + 1) t
  | env {n : Nat} {s t : St} : Run leave pre body n s → Env s t → Run leave pre body n t

/-- One operation per package resp. per file, with a check before it. -/
def checked (n : Nat) (o : Op) : List Op := (List.replicate n [.check, o]).flatten

/-- `completePlugin` (build.go:1003-1182): change to the directory and load the packages; read those that have Go files (1034-1092); remove the old generated files (1097-1099, static only); the
bureau directory and file and the main file (1130-1132); one file per package that has live functions or types (1134-1141); `epilogue` (1143). -/
def completePlugin (packages live : Nat) (clean epilogue : List Op) : List Op :=
  [.chdir, .other] ++ checked packages .other ++ clean ++ [.mkdir, .write, .write] ++ checked live .write ++ epilogue ++ [.ret]

/-- The operations of a dynamic build (build.go:294-298, 657-711): the required functions are parsed, directories made (`dirs` below the root), files copied, then `completePlugin` and `go build` (unless `--goBuild=false`). -/
def dynamicBody (dirs packages live : Nat) (goBuild : Bool) : List Op :=
  .other :: List.replicate (dirs + 1) .mkdir ++ [.copy] ++ completePlugin packages live [] [] ++ (if goBuild then [.build] else [])

/-- The operations of a static build (build.go:302, 393-400); its epilogue writes to `outputDir`. -/
def staticBody (packages live : Nat) : List Op := completePlugin packages live [.other] [.other, .other]

/-- The operations of `--clean` (build.go:299-300). -/
def cleanBody : List Op := [.other]

end Hotswap.Cli.Exec
