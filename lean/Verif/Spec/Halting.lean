import Verif.Spec.Outcome
import Verif.Spec.Threads
/-!
# Query builders that do not contain themselves
-/

namespace Sqlf.Spec

/-- The code commits arguments and reads them, but builds nothing. -/
def BuildsNothing : Prog → Prop
  | .ret _ => True
  | .fail _ => True
  | .panic _ _ => True
  | .commit _ k => ∀ t, BuildsNothing (k t)
  | .args k => ∀ vs, BuildsNothing (k vs)
  | .build _ _ => False
  | .buildWith _ _ _ => False
  | .query _ _ _ => False

/-- The code ends with an error or a panic, whatever the placeholders and arguments are. -/
def GivesNoText : Prog → Prop
  | .ret _ => False
  | .fail _ => True
  | .panic _ _ => True
  | .commit _ k => ∀ t, GivesNoText (k t)
  | .args k => ∀ vs, GivesNoText (k vs)
  | .build _ _ => False
  | .buildWith _ _ _ => False
  | .query _ _ _ => False

/-- A function that a build can call without running for ever: it builds nothing itself, so that it does not call itself;
and it is not one that `#join` goes through without an end, since it has no error result, or gives a text for the index
zero (so that `#join` refuses it), or from any index on there is one for which it gives no text. -/
def TameFunc : FuncVal → Prop
  | .notFunc => True
  | .func _ _ _ (.builtin _) => False
  | .func _ _ outs (.custom p) => (∀ vs, BuildsNothing (p vs)) ∧
      (outs.length ≠ 2 ∨ (∀ k, ∃ t, p [.num k (.int 0)] = .ret t) ∨
        ∀ k (from_ : Int), ∃ i, from_ ≤ i ∧ GivesNoText (p [.num k (.int i)]))

mutual
/-- The functions that the code in a builder adds to contexts (`ContextWithFuncs`) are tame. -/
def AddsTame : Builder → Prop
  | .frag f => AddsTameF f
  | .column _ f => AddsTameF f
  | .custom p => AddsTameP p
  | _ => True
def AddsTameF : Fragment → Prop
  | .mk _ _ frags _ _ => AddsTameL frags
def AddsTameL : List Builder → Prop
  | [] => True
  | b :: bs => AddsTame b ∧ AddsTameL bs
def AddsTameP : Prog → Prop
  | .ret _ => True
  | .fail _ => True
  | .panic _ _ => True
  | .commit _ k => ∀ t, AddsTameP (k t)
  | .args k => ∀ vs, AddsTameP (k vs)
  | .build b k => AddsTame b ∧ ∀ r, AddsTameP (k r)
  | .buildWith fm b k => (∀ e ∈ fm, TameFunc e.2) ∧ AddsTame b ∧ ∀ r, AddsTameP (k r)
  | .query _ b k => AddsTame b ∧ ∀ r, AddsTameP (k r)
end

/-- A context whose functions are built in or tame: a new one, and what `ContextWithFuncs` makes of such contexts. -/
inductive TameContext (L : GoLib) : Ctx → Prop where
  | builtins {c : Ctx} : OnlyBuiltins L c → TameContext L c
  | withFuncs {c c' : Ctx} {fm : FuncMap} : TameContext L c → (∀ e ∈ fm, TameFunc e.2) → contextWithFuncs L c fm = .ok c' →
      TameContext L c'

/-- Everything that is in one of the query builders (columns, conditions, CTEs, unions, and what is in those) refers
only to query builders with lower numbers.  The functions that their code adds are tame. -/
def Below (rank : Nat → Nat) (heap : List QB) : Prop :=
  ∀ r b, heap[r]? = some b → ∀ c ∈ partsOf b, RefsIn (fun q => rank q < rank r) c ∧ AddsTame c

/-- No query builder contains itself, directly or in others: they can be numbered so that each contains only ones with
lower numbers. -/
def NoneInItself (heap : List QB) : Prop := ∃ rank : Nat → Nat, Below rank heap

end Sqlf.Spec
