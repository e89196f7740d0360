import Verif.Spec.Catalog

/-! # Specification of the catalog for histories that create existing names again (C07–C09, C11)

The life of a name is the list of the definitions it has been given since it was last dropped, oldest first.
-/

namespace Verif.Catalog.Spec

structure Lives where
  tables : Name → List Spec
  functions : Name → List Spec

def Lives.none : Lives := ⟨fun _ => [], fun _ => []⟩

/-- One more definition of its name. -/
def born (f : Name → List Spec) (s : Spec) : Name → List Spec := fun n => if n = s.key then f n ++ [s] else f n

/-- The name is dropped. -/
def died (f : Name → List Spec) (n : Name) : Name → List Spec := fun m => if m = n then [] else f m

def Lives.step (l : Lives) : Op → Lives
  | .createTable s => { l with tables := born l.tables s }
  | .createFunction s => { l with functions := born l.functions s }
  | .dropTable n => { l with tables := died l.tables n }
  | .dropFunction n => { l with functions := died l.functions n }
  | .sync => l

def Lives.run (l : Lives) (ops : List (Nat × Op)) : Lives := ops.foldl (fun l o => l.step o.2) l

/-- Every create has a non-empty path and no name is that of a table and of a function at the same time.  Creating a
table or function again under its own name is allowed. -/
def Apart : Lives → List (Nat × Op) → Prop
  | _, [] => True
  | l, (_, op) :: ops =>
    (match op with
     | .createTable s => s.path ≠ [] ∧ l.functions s.key = []
     | .createFunction s => s.path ≠ [] ∧ l.tables s.key = []
     | _ => True) ∧ Apart (l.step op) ops

/-- The definition last given to a permanent object of this life. -/
def stored (life : List Spec) : Option Spec := (life.filter fun s => !s.isTemp).getLast?

/-- Creating an existing name again changes nothing. -/
def keep (l : List Spec) (s : Spec) : List Spec := if ∃ t ∈ l, t.key = s.key then l else l ++ [s]

/-- The oldest definition of every living name, in the order in which the lives began. -/
def Dict.stepFirst (d : Dict) : Op → Dict
  | .createTable s => { d with tables := keep d.tables s }
  | .createFunction s => { d with functions := keep d.functions s }
  | .dropTable n => { d with tables := remove d.tables n }
  | .dropFunction n => { d with functions := remove d.functions n }
  | .sync => d

def Dict.firsts (d : Dict) (ops : List (Nat × Op)) : Dict := ops.foldl (fun d o => d.stepFirst o.2) d

/-- The latest permanent definition of every living name, in the order in which the names became permanent. -/
def Dict.stepStored (d : Dict) : Op → Dict
  | .createTable s => if s.isTemp then d else { d with tables := define d.tables s }
  | .createFunction s => if s.isTemp then d else { d with functions := define d.functions s }
  | .dropTable n => { d with tables := remove d.tables n }
  | .dropFunction n => { d with functions := remove d.functions n }
  | .sync => d

def Dict.storeds (d : Dict) (ops : List (Nat × Op)) : Dict := ops.foldl (fun d o => d.stepStored o.2) d

end Verif.Catalog.Spec
