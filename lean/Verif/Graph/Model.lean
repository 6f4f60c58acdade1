/-!
# Model of the graph cache of `tf_function`

Models which graph a call of a decorated function runs (`tensorforce/core/module.py` 29-43, 46-146).

Simplifications:
- One function of one module, called from outside: calls by `super()` run the raw function (79-84) and are left out.
- Arguments in the signature are tensors, which do not matter for the choice of the graph, and are left out.
- Functions with `api_function=True` fail on a new key unless `_initialize` is given (101); here every new key builds a graph.
- Python's `str` of a tuple of keys (100, 114, 136) is taken to be injective, as it is for `None`, bools, ints, strings and tuples of them.
- A plain value is one of these; a float or a tuple containing modules is outside the model.
- A graph is represented by the parameters the function was traced with, `params_kwargs` in 107.
-/

namespace Verif.Graph

/-- Hashable and comparable values. -/
inductive PyVal where
  | none
  | bool (b : Bool)
  | int (n : Int)
  | str (s : String)
  | tuple (l : List PyVal)

mutual
def PyVal.beq : PyVal → PyVal → Bool
  | .none, .none => true
  | .bool a, .bool b => a == b
  | .int a, .int b => a == b
  | .str a, .str b => a == b
  | .tuple a, .tuple b => beqList a b
  | _, _ => false
def beqList : List PyVal → List PyVal → Bool
  | [], [] => true
  | a :: as, b :: bs => a.beq b && beqList as bs
  | _, _ => false
end

/-- A parameter, that is a keyword argument not in the signature. Modules, functions and variables have an identity. -/
inductive Param where
  | plain (v : PyVal)
  | variables (names : List (Nat × String)) -- a tuple of variables
  | module (id : Nat) (cls : String)
  | function (id : Nat) (name : String)
  | other (id : Nat)

/-- `make_key`, 29-43. -/
def makeKey : Param → Option PyVal
  | .plain v => some v
  | .variables [] => some (.tuple [])
  | .variables vs => some (.tuple (vs.map fun v => .str v.2))
  | .module _ cls => some (.str cls)
  | .function _ name => some (.str name)
  | .other _ => none

/-- Keyword arguments in the order of the call. -/
abbrev Kwargs := List (String × Param)

/-- `graph_params`, 90-93: the values only. -/
def graphParams : Kwargs → Option (List PyVal)
  | [] => some []
  | (_, p) :: kw =>
    match makeKey p, graphParams kw with
    | some k, some ks => some (k :: ks)
    | _, _ => none

/-- `_<name>_graphs`, 63-67: keys and graphs. -/
abbrev Cache := List (List PyVal × Kwargs)

/-- `function_graphs[str(graph_params)]`, 100 and 136. -/
def find (key : List PyVal) : Cache → Option Kwargs
  | [] => none
  | (k, g) :: c => if beqList k key then some g else find key c

/-- A call: the new cache and the graph run, 90-136. -/
def call (c : Cache) (kw : Kwargs) : Option (Cache × Kwargs) :=
  match graphParams kw with
  | none => none
  | some key =>
    match find key c with
    | some g => some (c, g)
    | none => some ((key, kw) :: c, kw)

/-- The cache after some calls; one that raises changes nothing. -/
def calls (c : Cache) : List Kwargs → Cache
  | [] => c
  | kw :: l =>
    match call c kw with
    | none => calls c l
    | some (c', _) => calls c' l

end Verif.Graph
