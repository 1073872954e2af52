import Mathlib.Algebra.Order.Field.Basic
import Mathlib.Algebra.BigOperators.Group.List.Basic

/-!
# Specification vocabulary: textbook statistics of a list of numbers
-/

namespace Pace.Spec
variable {K : Type} [Field K]

/-- Arithmetic mean. -/
def mean (l : List K) : K := l.sum / (l.length : K)

/-- Sum of squared deviations from the mean. -/
def sqDev (l : List K) : K := (l.map fun v => (v - mean l) ^ 2).sum

/-- Population variance: `1/n Σ (x - mean)²`. -/
def popVar (l : List K) : K := sqDev l / (l.length : K)

/-- Sample variance: `1/(n-1) Σ (x - mean)²`. -/
def sampleVar (l : List K) : K := sqDev l / ((l.length : K) - 1)

end Pace.Spec
