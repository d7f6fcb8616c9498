/-!
# Python computations: state that survives exceptions

`PyM ε σ α` is a computation over a mutable state `σ` that either returns a value or raises an
exception of type `ε`.  In contrast to `Except ε (α × σ)`, the state after an exception is kept:
that is what Python does, and it is what the properties about failing code are about.
-/
namespace Pyth

-- decidable equality of outcomes (used to evaluate concrete examples)
deriving instance DecidableEq for Except

/-- A Python computation: run it in a state, get a value or an exception, and the new state. (Python itself, no file of the repository) -/
def PyM (ε σ α : Type) : Type := σ → Except ε α × σ

namespace PyM

variable {ε σ α β : Type}

/-- `return a` (Python itself, no file of the repository) -/
def ret (a : α) : PyM ε σ α := fun s => (.ok a, s)

/-- sequential composition: an exception in `m` skips the rest (Python itself, no file of the repository) -/
def bind (m : PyM ε σ α) (k : α → PyM ε σ β) : PyM ε σ β := fun s =>
  match m s with
  | (.ok a, s') => k a s'
  | (.error e, s') => (.error e, s')

instance : Monad (PyM ε σ) where
  pure := ret
  bind := bind

/-- `raise e` (Python itself, no file of the repository) -/
def raise (e : ε) : PyM ε σ α := fun s => (.error e, s)

/-- read the state (Python itself, no file of the repository) -/
def get : PyM ε σ σ := fun s => (.ok s, s)

/-- update the state (Python itself, no file of the repository) -/
def modify (f : σ → σ) : PyM ε σ Unit := fun s => (.ok (), f s)

/-- `try: m  except: h e` (Python itself, no file of the repository) -/
def tryExcept (m : PyM ε σ α) (h : ε → PyM ε σ α) : PyM ε σ α := fun s =>
  match m s with
  | (.ok a, s') => (.ok a, s')
  | (.error e, s') => h e s'

/-- `try: m  finally: f`: `f` runs on both paths; an exception raised by `f` replaces the outcome
of `m`. (Python itself, no file of the repository) -/
def tryFinally (m : PyM ε σ α) (f : PyM ε σ Unit) : PyM ε σ α := fun s =>
  match m s with
  | (r, s') => match f s' with
    | (.ok _, s'') => (r, s'')
    | (.error e, s'') => (.error e, s'')

/-- a Python-level partial state transformer (may raise without changing the state) (Python itself, no file of the repository) -/
def liftE (f : σ → Except ε σ) : PyM ε σ Unit := fun s =>
  match f s with
  | .ok s' => (.ok (), s')
  | .error e => (.error e, s)

/-- `for a in l: body a` (Python itself, no file of the repository) -/
def forEach : List α → (α → PyM ε σ Unit) → PyM ε σ Unit
  | [], _ => ret ()
  | a :: l, body => bind (body a) fun _ => forEach l body

@[simp] theorem run_pure (a : α) (s : σ) : (pure a : PyM ε σ α) s = (.ok a, s) := rfl
@[simp] theorem run_ret (a : α) (s : σ) : (ret a : PyM ε σ α) s = (.ok a, s) := rfl
@[simp] theorem run_raise (e : ε) (s : σ) : (raise e : PyM ε σ α) s = (.error e, s) := rfl
@[simp] theorem run_get (s : σ) : (get : PyM ε σ σ) s = (.ok s, s) := rfl
@[simp] theorem run_modify (f : σ → σ) (s : σ) : (modify f : PyM ε σ Unit) s = (.ok (), f s) := rfl

theorem run_bind (m : PyM ε σ α) (k : α → PyM ε σ β) (s : σ) :
    (m >>= k) s = match m s with
      | (.ok a, s') => k a s'
      | (.error e, s') => (.error e, s') := rfl

theorem run_bind' (m : PyM ε σ α) (k : α → PyM ε σ β) (s : σ) :
    (bind m k) s = match m s with
      | (.ok a, s') => k a s'
      | (.error e, s') => (.error e, s') := rfl

end PyM
end Pyth
