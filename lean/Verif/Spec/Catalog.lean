import Verif.Model.Catalog

/-! # Specification of the catalog (C07–C11, C15)

The catalog as a user sees it: two dictionaries in creation order.  Creating a
name that exists replaces its definition, dropping removes it.
-/

namespace Verif.Catalog.Spec

structure Dict where
  tables : List Spec
  functions : List Spec

def Dict.empty : Dict := ⟨[], []⟩

/-- Define `s`, replacing an existing definition of the same name. -/
def define (l : List Spec) (s : Spec) : List Spec :=
  if ∃ t ∈ l, t.key = s.key then l.map (fun t => if t.key = s.key then s else t) else l ++ [s]

def remove (l : List Spec) (n : Name) : List Spec := l.filter fun t => t.key ≠ n

def Dict.step (d : Dict) : Op → Dict
  | .createTable s => { d with tables := define d.tables s }
  | .createFunction s => { d with functions := define d.functions s }
  | .dropTable n => { d with tables := remove d.tables n }
  | .dropFunction n => { d with functions := remove d.functions n }
  | .sync => d

def Dict.run (d : Dict) (ops : List (Nat × Op)) : Dict := ops.foldl (fun d o => d.step o.2) d

/-- The definition of `n`, if any. -/
def lookup (l : List Spec) (n : Name) : Option Spec := l.find? fun t => t.key = n

/-- Every create is of a name that no table and no function has at that time, with a
non-empty path. -/
def FreshNames : Dict → List (Nat × Op) → Prop
  | _, [] => True
  | d, (_, op) :: ops =>
    (match op with
     | .createTable s | .createFunction s =>
       s.path ≠ [] ∧ (∀ t ∈ d.tables, t.key ≠ s.key) ∧ (∀ t ∈ d.functions, t.key ≠ s.key)
     | _ => True) ∧ FreshNames (d.step op) ops

/-- No create is of a temporary object. -/
def Permanent (ops : List (Nat × Op)) : Prop := ∀ o ∈ ops, match o.2 with
  | .createTable s | .createFunction s => s.isTemp = false
  | _ => True

/-- What a process sees: the tables it can drop (by stored name), the function
definitions used to run queries (by stored name), and the tables the analyzer
resolves (by path). -/
structure SameView (m m' : Mem) : Prop where
  table : ∀ n, m.tableMap n = m'.tableMap n
  function : ∀ n, queryFuncMap m [] n = queryFuncMap m' [] n
  analyzedTable : ∀ p, m.tableTree.find p = m'.tableTree.find p
  analyzedFunction : ∀ p, m.funcTree.find p = m'.funcTree.find p

end Verif.Catalog.Spec
