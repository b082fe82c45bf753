import Verif.Model.Types

/-!
# The computation monad of a load

A Go function that may return an error or panic, working on the manager under construction and
recording the actions it performs.
-/

namespace Hotswap

/-- The three ways a Go function can end. -/
inductive Exit (α : Type) where
  | ok (a : α)
  | err (e : Err)
  | panic (p : Panic)

/-- State of a load: the allocator of identities, the manager being built, the actions so far. -/
structure LoadSt where
  next : Nat
  pm : Manager
  acts : List Act

/-- A computation of the load. -/
def M (α : Type) := LoadSt → Exit α × LoadSt

namespace M

def pure (a : α) : M α := fun s => (.ok a, s)

def bind (x : M α) (f : α → M β) : M β := fun s =>
  match x s with
  | (.ok a, s') => f a s'
  | (.err e, s') => (.err e, s')
  | (.panic p, s') => (.panic p, s')

instance : Monad M where
  pure := M.pure
  bind := M.bind

def get : M LoadSt := fun s => (.ok s, s)
/-- `return err` -/
def throw (e : Err) : M α := fun s => (.err e, s)
/-- `panic(...)` -/
def panic (p : Panic) : M α := fun s => (.panic p, s)
/-- record an action -/
def emit (a : Act) : M Unit := fun s => (.ok (), { s with acts := s.acts ++ [a] })
/-- update the manager under construction -/
def modPm (f : Manager → Manager) : M Unit := fun s => (.ok (), { s with pm := f s.pm })
/-- allocate an identity -/
def alloc : M Nat := fun s => (.ok s.next, { s with next := s.next + 1 })

/-- `for _, a := range l { f(a) }`, leaving the loop at the first error or panic. -/
def forEach (l : List α) (f : α → M Unit) : M Unit :=
  match l with
  | [] => M.pure ()
  | a :: r => M.bind (f a) (fun _ => forEach r f)

end M

end Hotswap
