import Verif.Model.Approx

/-!
# CORR, STDDEV_POP and STDDEV_SAMP (internal/function_aggregate.go)

In exact arithmetic: the results are square roots of rational numbers.
-/

namespace Verif.Approx

/-- A real number: the root of `sq`, or minus the root of `-sq` if that is negative.  `a` is not greater than `b` just if `a.sq ≤ b.sq`,
and the rational number `q` is `ofRat q`. -/
structure Root where
  sq : Rat
  deriving DecidableEq, Repr

/-- `s * s` with the sign of `s`. -/
def signed (s : Rat) : Rat := if s < 0 then -(s * s) else s * s

/-- A rational number. -/
def Root.ofRat (q : Rat) : Root := ⟨signed q⟩

/-- gonum stat.Correlation: the quotient of `devs` and a root; 0/0 is NaN, which SQLite stores as NULL.  (The numerator is 0 whenever
the divisor is.) -/
def correlation (ps : List (Rat × Rat)) : Option Root :=
  let d := devs (ps.map fun p => (p.1, p.1)) * devs (ps.map fun p => (p.2, p.2))
  if d = 0 then none else some ⟨signed (devs ps) / d⟩

/-- function_aggregate.go:540-560 CORR: rows with a NULL are skipped. -/
def corr (rows : List (Option Rat × Option Rat)) : Option Root :=
  if pairs rows = [] then none else correlation (pairs rows)

/-- function_aggregate.go:622-644 STDDEV_POP, stat.PopMeanStdDev: the root of the variance. -/
def stddevPop (rows : List (Option Rat)) : Option Root :=
  if rows.filterMap id = [] then none else (popVariance (rows.filterMap id)).map Root.mk

/-- function_aggregate.go:646-669 STDDEV_SAMP, also STDDEV, stat.StdDev: the root of the variance. -/
def stddevSamp (rows : List (Option Rat)) : Option Root :=
  if rows.filterMap id = [] then none else (variance (rows.filterMap id)).map Root.mk

end Verif.Approx
