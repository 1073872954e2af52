import Verif.Model.Ta
import Verif.Model.Strategy

/-!
# Snapshot assertions

testing/array_snapshot.rs: the comparison of an indicator's outputs with a recorded series.  Modelled are the panics and which lines
are printed; the colours and the `Debug` rendering of the values are not.
-/

namespace Pace

/-- A printed line. -/
inductive SnapLine where
  /-- the line with the actual and the expected value at an index where they differ, testing/array_snapshot.rs:56-61 -/
  | mismatch (i : Nat)
  /-- the line with the value at an index in debug mode, testing/array_snapshot.rs:71-75 -/
  | value (i : Nat)
  deriving DecidableEq, Repr

/-- `struct ArraySnapshot`, testing/array_snapshot.rs:7-11 -/
structure ArraySnapshot (T : Type) where
  debugMode : Bool
  printMaxIndex : Option Nat
  actual : List T

namespace ArraySnapshot
variable {T : Type}

/-- testing/array_snapshot.rs:18-24 -/
def new : ArraySnapshot T := ⟨false, none, []⟩

/-- `debug_mode`, testing/array_snapshot.rs:26-28 -/
def debug (s : ArraySnapshot T) : ArraySnapshot T := { s with debugMode := true }

/-- `debug_mode_max`, testing/array_snapshot.rs:30-33 -/
def debugMax (s : ArraySnapshot T) (maxIndex : Nat) : ArraySnapshot T := debug { s with printMaxIndex := some maxIndex }

/-- `actual`, testing/array_snapshot.rs:35-37 -/
def setActual (s : ArraySnapshot T) (v : List T) : ArraySnapshot T := { s with actual := v }

/-- testing/array_snapshot.rs:39-41 -/
def push (s : ArraySnapshot T) (v : T) : ArraySnapshot T := { s with actual := s.actual ++ [v] }

/-- The loop of `assert_iter`, testing/array_snapshot.rs:51-77, from index `i` on. -/
def loop (s : ArraySnapshot T) (compare : T → T → Bool) : Nat → List T → List T → List SnapLine × Res Unit
  | i, a :: as, e :: es =>
    if !compare a e then ([.mismatch i], if !s.debugMode then .error .explicit else .ok ())
    else
      let rest := loop s compare (i + 1) as es
      let lines :=
        if s.debugMode && (match s.printMaxIndex with | none => true | some m => decide (m > i)) then [SnapLine.value i] else []
      (lines ++ rest.1, rest.2)
  | _, _, _ => ([], .ok ())

/-- `assert_iter`, testing/array_snapshot.rs:43-79: the lines printed, and whether it panics. -/
def assertIter (s : ArraySnapshot T) (expected : List T) (compare : T → T → Bool) : List SnapLine × Res Unit :=
  if s.actual.length ≠ expected.length then ([], .error .assertFailed) else loop s compare 0 s.actual expected

end ArraySnapshot

/-! ## The comparisons of the element types -/

section
variable {α : Type} [F64 α]

/-- `FloatComparison::compare`, testing/comparison.rs:11-13 -/
def floatCompare (x target : α) : Bool := compareWithPrecision x target (lit (1 / 100000))

/-- The `match` on two optional floats that is repeated in testing/array_snapshot.rs:92-98 and 113-123 -/
def optFloatCompare : Option α → Option α → Bool
  | some a, some e => floatCompare a e
  | none, none => true
  | _, _ => false

/-- `Option<i32>`, `Option<bool>`, `Option<TradeDirection>`: testing/array_snapshot.rs:82-90, 102-110, 230-238 -/
def optEqCompare {β : Type} [DecidableEq β] : Option β → Option β → Bool
  | some a, some e => decide (a = e)
  | none, none => true
  | _, _ => false

/-- `(Option<f64>, Option<f64>, bool)`, testing/array_snapshot.rs:112-128 -/
def tripleBoolCompare (a e : Option α × Option α × Bool) : Bool :=
  optFloatCompare a.1 e.1 && optFloatCompare a.2.1 e.2.1 && decide (a.2.2 = e.2.2)

/-- `Option<(f64, f64)>`, testing/array_snapshot.rs:130-140 -/
def pairCompare : Option (α × α) → Option (α × α) → Bool
  | none, none => true
  | some a, some e => floatCompare a.1 e.1 && floatCompare a.2 e.2
  | _, _ => false

/-- `Option<(Option<f64>, Option<f64>)>`, testing/array_snapshot.rs:142-154 -/
def optPairCompare : Option (Option α × Option α) → Option (Option α × Option α) → Bool
  | none, none => true
  | some a, some e => optFloatCompare a.1 e.1
  | _, _ => false

/-- `Option<(Option<f64>, Option<f64>, Option<f64>)>`, testing/array_snapshot.rs:156-183 -/
def optTripleCompare : Option (Option α × Option α × Option α) → Option (Option α × Option α × Option α) → Bool
  | none, none => true
  | some a, some e => optFloatCompare a.1 e.1 && optFloatCompare a.2.1 e.2.1 && optFloatCompare a.2.2 e.2.2
  | _, _ => false

/-- `Option<(Option<f64>, Option<f64>, Option<f64>, Option<f64>)>`, testing/array_snapshot.rs:185-227 -/
def optQuadCompare : Option (Option α × Option α × Option α × Option α) → Option (Option α × Option α × Option α × Option α) → Bool
  | none, none => true
  | some a, some e =>
    optFloatCompare a.1 e.1 && optFloatCompare a.2.1 e.2.1 && optFloatCompare a.2.2.1 e.2.2.1 && optFloatCompare a.2.2.2 e.2.2.2
  | _, _ => false

end
end Pace
