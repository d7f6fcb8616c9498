import Verif.Model.PureHistory
/-!
# User programs: API operations under `with`, `try` and `raise`

The statements a program that uses the library is made of, as far as exceptions are concerned.
-/
namespace Pyth.Pure
open Pyth.World Pyth.Portal

variable {U A : Type} [DecidableEq U] [DecidableEq A] (addrOf : Val U A → A)

/-- forget the returned value (return values of pure_core_classes.py:374-491) -/
def done {α : Type} (m : PM U A α) : PM U A Unit := PyM.bind m fun _ => PyM.ret ()

/-- One API operation, with its outcome.  Entering and leaving portals and `except` clauses are
expressed by the statements of `UProg` below, so these four steps do nothing here.
(pure_core_classes.py:374-491, 637-718, value_addresses.py:26-61, 142-153) -/
def POp.act (prog : FnId → Fn U) : POp U A → PM U A Unit
  | .val (.new v p) => done (ValueAddr.new addrOf v p)
  | .val (.conv i p) => done (ValueAddr.conv i p)
  | .val (.fromStrings a p c) => done (ValueAddr.fromStrings a p c)
  | .val (.copy i) => done (ValueAddr.copy i)
  | .val (.unpickle i) => done (ValueAddr.unpickle i)
  | .val (.get i) => done (ValueAddr.get i)
  | .val (.ready i) => done (ValueAddr.ready i)
  | .val (.newPortal p) => PyM.modify fun s => { s with sys := register s.sys p }
  | .val (.enter _) => PyM.ret ()
  | .val (.exit _) => PyM.ret ()
  | .val (.beginExcept _) => PyM.ret ()
  | .val .endExcept => PyM.ret ()
  | .val (.foreign p v) => done (storeSet p (addrOf v) v)
  | .call p n f kw => done (exec addrOf prog p n f kw)
  | .address p f kw => done (getAddress addrOf p f kw)
  | .swarm p f kw => done (Pure.swarm addrOf p f kw)
  | .run n p f kw => done (Pure.run addrOf prog n p f kw)
  | .swarmList sh p f l => done (Pure.swarmList addrOf sh p f l)
  | .runList n sh1 sh2 p f l => done (Pure.runList addrOf prog n sh1 sh2 p f l)
  | .fromKey p k => done (rFromKey p k)
  | .rexec n r => done (rExecute addrOf prog n r)
  | .rget r => done (rGet addrOf r)
  | .rready r => done (rReady addrOf r)
  | .rrequest r => done (rRequest addrOf r)
  | .rkwargs r => done (rKwargs r)
  | .rdrop r => done (rDrop r)
  | .foreignResult p f vals u => PyM.modify (putResult addrOf p f vals u)
  | .foreignRequest p f vals => modExt fun x =>
      { x with requests := upd2 x.requests p (keyOf addrOf f vals) true }
  | .foreignDrop p k => modExt fun x => { x with requests := upd2 x.requests p k false }

/-- statements (user code with blocks of foundation.py:112-133, logging_portals.py:326-330) -/
inductive UProg (U A : Type)
  | pass
  /-- an API operation -/
  | op (o : POp U A)
  /-- `raise SomeError()` -/
  | raise (k : Kind)
  /-- `raise` inside an `except` clause: the exception being handled is raised again -/
  | reraise
  /-- `a; b` -/
  | seq (a b : UProg U A)
  /-- `try: a except: b` -/
  | tryExcept (a b : UProg U A)
  /-- `with p: a` -/
  | within (p : PortalId) (a : UProg U A)

/-- `raise` without operand; outside of an `except` clause it is a `RuntimeError` (user code) -/
def raiseAgain : PM U A Unit := fun s =>
  match s.handling with
  | [] => raiseNew (.user 0) s
  | e :: _ => (.error e, s)

/-- execution of a statement (foundation.py:112-133, logging_portals.py:326-330) -/
def UProg.run (prog : FnId → Fn U) : UProg U A → PM U A Unit
  | .pass => PyM.ret ()
  | .op o => o.act addrOf prog
  | .raise k => raiseNew k
  | .reraise => raiseAgain
  | .seq a b => PyM.bind (a.run prog) fun _ => b.run prog
  | .tryExcept a b => tryE (a.run prog) fun _ => b.run prog
  | .within p a => withP p (a.run prog)

end Pyth.Pure
