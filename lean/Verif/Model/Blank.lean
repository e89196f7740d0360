import Verif.Model.Query

/-!
# Scans the formatter writes as nothing (internal/formatter.go)

The analyzer accepts TABLESAMPLE, PIVOT and UNPIVOT (analyzer.go:39-79), but `FormatSQL` of SampleScanNode (1195-1197),
PivotScanNode (1947-1949) and UnpivotScanNode (1959-1961) is the empty text, like that of SingleRowScanNode (597-599), the scan of a
query without FROM.
-/

namespace Verif.Blank

open Verif.Query

/-- A query on top of such a scan: SELECT, SELECT with WHERE, SELECT with aggregates. -/
inductive Top where
  | select (exprs : CExprs) (cols : List Col)
  | filtered (e : Expr) (exprs : CExprs) (cols : List Col)
  | aggregate (groups : CExprs) (aggs : Aggs) (cols : List Col)

/-- The query on a scan. -/
def Top.on (t : Top) (s : Scan) : Scan :=
  match t with
  | .select exprs cols => .project s exprs cols
  | .filtered e exprs cols => .project (.filter s e) exprs cols
  | .aggregate groups aggs cols => .agg s groups aggs cols

/-- The text of a query on a sampled, pivoted or unpivoted table: that with nothing in the place of the scan.  (ProjectScanNode,
FilterScanNode and AggregateScanNode use the text of their input only.) -/
def text (out : List (Col × List Char)) (t : Top) : Option (List Tok) := fmtQuery out (t.on .single)

end Verif.Blank
