import Verif.Model.SwarmParts
/-!
# Accesses to the dictionaries that fail (value_addresses.py:126-153, first_entry_dict.py:33-52)

In `Verif.Model.SwarmParts` every access to a dictionary of a portal succeeds.  Here any access of any process may fail, at any
time and any number of times (disk full, network share gone, file locked by another process, unreadable file).  A write that takes
effect although it raises is a successful step followed by a failure (`fail` is possible at every point of an operation).
-/
namespace Pyth.Parts
open Pyth.Pure (Val FnId)

variable {U A P : Type} [DecidableEq P] [DecidableEq A]

/-- one step of process `i`, or a failure of the access it is about to make
(a failure at any access of swarming_portals.py:198-226 or pure_core_classes.py:404-718) -/
inductive FStep (h : Val U A → A) (code : FnId → List (String × Val U A) → Code U A P)
    (travel : Prop) (knows : P → List P → Prop) (i : Nat) (s : State U A P) : State U A P → Prop
  /-- the access succeeds, or the process dies -/
  | step (t) (x : Step h code travel knows i s t) : FStep h code travel knows i s t
  /-- the access raises an exception.  No `try` of the library is around it (pure_core_classes.py, data_portals.py, kw_args.py), or the
  `except` clause raises it again (pure_core_classes.py:432-437), or the second attempt fails too
  (first_entry_dict.py:46-51): the whole operation ends with this exception.  (Exceptions of the operations other than those of
  the code of functions are one reply, `missing`.) -/
  | fail (x) (hm : (s.procs i).mode = .io x) : FStep h code travel knows i s (s.goto i (.io (.done .missing)))
  /-- a value cannot be read, or cannot be copied into the portal `p`: the exception is swallowed and the search goes on as if the
  value were not there (value_addresses.py:129-137, 148-153).  Where the exception is not swallowed, this is one more behaviour
  that the code does not have. -/
  | unread (p a k) (hm : (s.procs i).mode = .io (.load p a k)) : FStep h code travel knows i s (s.goto i (.io (k none)))
  /-- the first attempt to write a result fails, the second finds that somebody has stored one meanwhile
  (first_entry_dict.py:46-49).  If the check that may follow fails, this is `fail`. -/
  | retried (p a r k) (hm : (s.procs i).mode = .io (.setResult p a r k)) (hr : (s.sh.results p a).isSome = true) :
      FStep h code travel knows i s (s.goto i (.io k))

/-- any number of steps of any processes, with crashes and failing accesses (swarming_portals.py:198-226, pure_core_classes.py:404-718) -/
inductive FSteps (h : Val U A → A) (code : FnId → List (String × Val U A) → Code U A P)
    (travel : Prop) (knows : P → List P → Prop) : State U A P → State U A P → Prop
  | refl (s) : FSteps h code travel knows s s
  | step {s t u} (i) (x : FSteps h code travel knows s t) (y : FStep h code travel knows i t u) : FSteps h code travel knows s u

end Pyth.Parts
