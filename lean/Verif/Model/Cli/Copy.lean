import Verif.Go.Str

/-!
# The parallel copy (cli/hotswap/cmd/build.go:786-846, the worker pool of `copyFiles`)

The state machine of the workers. A step is one synchronising operation of one worker (a `select`, a send, `close`) or the
end of one copy; any worker may take the next step, and a `select` with several ready cases takes any of them. The contents of
the copies are modelled in `Model/Cli/Rewrite.lean`.
-/

namespace Hotswap.Cli.Copy

/-- Where a worker is. -/
inductive Worker where
  /-- at the `select` of build.go:810-818 -/
  | idle
  /-- between taking a file and the end of its copy, build.go:820-836 -/
  | copying (f : Str)
  /-- `reportErr`, before the send of build.go:795 -/
  | reporting (f : Str)
  /-- `reportErr`, at the `select` of build.go:796-797 -/
  | checking
  /-- `reportErr`, in the default branch, before `close(abort)` (build.go:799) -/
  | closing
  /-- returned -/
  | done
  deriving DecidableEq, Repr

/-- The shared state. `copied` is the list of completed copies, oldest first. -/
structure St where
  /-- the buffered channel `pending` (build.go:786-789) -/
  pending : List Str
  workers : List Worker
  copied : List Str
  /-- history, not in the code: the files whose copy failed -/
  failed : List Str
  /-- the contents of the buffered channel `chErr` (build.go:792) -/
  chErr : List Str
  /-- is `abort` (build.go:793) closed? -/
  abort : Bool
  /-- is `interruptProgram` (build.go:66) closed? -/
  interrupt : Bool
  /-- a worker panicked in `close(abort)`; a panic in a goroutine ends the program -/
  crashed : Bool
  deriving DecidableEq, Repr

/-- build.go:786-807: all files pending, `burst` workers started. `interruptProgram` may be closed already. -/
def St.init (files : List Str) (burst : Nat) (interrupt : Bool) : St :=
  ⟨files, List.replicate burst .idle, [], [], [], false, interrupt, false⟩

/-- Worker `i` moves to `w`. -/
def St.move (s : St) (i : Nat) (w : Worker) : St := { s with workers := s.workers.set i w }

/-- One step. The capacity of `chErr` is the number of workers (build.go:791-792). -/
inductive Step : St → St → Prop
  /-- build.go:811-812 -/
  | interrupted {s : St} {i : Nat} : s.crashed = false → s.workers[i]? = some .idle → s.interrupt = true → Step s (s.move i .done)
  /-- build.go:813-814 -/
  | aborted {s : St} {i : Nat} : s.crashed = false → s.workers[i]? = some .idle → s.abort = true → Step s (s.move i .done)
  /-- build.go:815 -/
  | take {s : St} {i : Nat} {f : Str} {r : List Str} : s.crashed = false → s.workers[i]? = some .idle → s.pending = f :: r →
      Step s { s.move i (.copying f) with pending := r }
  /-- build.go:816-817; the default branch is taken only if no case is ready -/
  | empty {s : St} {i : Nat} : s.crashed = false → s.workers[i]? = some .idle → s.interrupt = false → s.abort = false → s.pending = [] →
      Step s (s.move i .done)
  /-- build.go:820-836 without error -/
  | copyOk {s : St} {i : Nat} {f : Str} : s.crashed = false → s.workers[i]? = some (.copying f) →
      Step s { s.move i .idle with copied := s.copied ++ [f] }
  /-- build.go:822-825 or 832-835: reading or writing failed -/
  | copyFail {s : St} {i : Nat} {f : Str} : s.crashed = false → s.workers[i]? = some (.copying f) →
      Step s { s.move i (.reporting f) with failed := s.failed ++ [f] }
  /-- build.go:795; a send blocks while the buffer is full -/
  | send {s : St} {i : Nat} {f : Str} : s.crashed = false → s.workers[i]? = some (.reporting f) → s.chErr.length < s.workers.length →
      Step s { s.move i .checking with chErr := s.chErr ++ [f] }
  /-- build.go:797, then `return` -/
  | sawAbort {s : St} {i : Nat} : s.crashed = false → s.workers[i]? = some .checking → s.abort = true → Step s (s.move i .done)
  /-- build.go:798 -/
  | noAbort {s : St} {i : Nat} : s.crashed = false → s.workers[i]? = some .checking → s.abort = false → Step s (s.move i .closing)
  /-- build.go:799, then `return` -/
  | close {s : St} {i : Nat} : s.crashed = false → s.workers[i]? = some .closing → s.abort = false →
      Step s { s.move i .done with abort := true }
  /-- build.go:799: closing a closed channel panics -/
  | doubleClose {s : St} {i : Nat} : s.crashed = false → s.workers[i]? = some .closing → s.abort = true → Step s { s with crashed := true }

/-- Something outside the workers happens: SIGINT closes `interruptProgram` (build.go:276). -/
inductive Env : St → St → Prop
  | sigint {s : St} : s.interrupt = false → Env s { s with interrupt := true }

/-- The states that can occur, with the number of steps of workers so far. -/
inductive Run (files : List Str) (burst : Nat) : Nat → St → Prop
  | init (b : Bool) : Run files burst 0 (St.init files burst b)
  | step {n : Nat} {s t : St} : Run files burst n s → Step s t → Run files burst (n + 1) t
  | env {n : Nat} {s t : St} : Run files burst n s → Env s t → Run files burst n t

/-- build.go:840: `wg.Wait()` returns when every worker has returned. -/
def St.finished (s : St) : Prop := s.crashed = false ∧ ∀ w ∈ s.workers, w = .done

/-- build.go:841-845: what `copyFiles` does then: `some f` is the panic with the error of file `f`. -/
def St.outcome (s : St) : Option Str := s.chErr.head?

end Hotswap.Cli.Copy
