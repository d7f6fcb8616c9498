import Verif.Spec.Registry
/-! # Small concrete registries -/
namespace Pyth.Registry.Ex
open Pyth.Analyzer

/-- sets are iterated backwards -/
def E : Env := ⟨["len", "print"], List.reverse⟩

theorem E_ok : E.Ok := fun l => List.reverse_perm l

/-- the call `x()` -/
def callTo (x : String) : Node := .other "Expr" none [.other "Call" none [.name x .load]]
/-- `def n(): m1(); m2(); …` -/
def fn (n : String) (ms : List String) : Src := { name := n, body := ms.map callTo }

def aut (s : Src) : Op := .decorate { cls := .autonomous, portal := 0, island := "I", src := s }
def strictly (s : Src) : Op := .decorate { cls := .autonomous, portal := 0, island := "I", src := s, strict := true }
def pur (s : Src) (gs : Option (List GuardArg) := none) : Op := .decorate { cls := .pure, portal := 0, island := "I", src := s, guards := gs }

end Pyth.Registry.Ex
