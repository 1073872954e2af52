/-!
# Panics and runs

`Res α` is the result of a Rust call that may panic.  A panic is an explicit value, never a default.
-/

namespace Pace

/-- The ways in which the modelled Rust code can panic. -/
inductive Panic where
  /-- `Option::unwrap` on `None`. -/
  | unwrapNone
  /-- slice / `Vec` index or range out of bounds. -/
  | outOfBounds
  /-- `usize` subtraction below zero (overflow checks on). -/
  | underflow
  /-- a failed `assert!`. -/
  | assertFailed
  /-- an explicit `panic!`. -/
  | explicit
  deriving DecidableEq, Repr

/-- Result of a call that may panic. -/
abbrev Res (α : Type) := Except Panic α

deriving instance DecidableEq for Except

@[simp] theorem Res.ok_bind {α β : Type} (a : α) (f : α → Res β) :
    ((Except.ok a : Res α) >>= f) = f a := rfl
@[simp] theorem Res.error_bind {α β : Type} (e : Panic) (f : α → Res β) :
    ((Except.error e : Res α) >>= f) = Except.error e := rfl
@[simp] theorem Res.pure_eq {α : Type} (a : α) : (pure a : Res α) = Except.ok a := rfl
@[simp] theorem Res.map_ok {α β : Type} (a : α) (f : α → β) :
    (f <$> (Except.ok a : Res α)) = Except.ok (f a) := rfl

/-- `Option::unwrap`. -/
def unwrap {α : Type} : Option α → Res α
  | some a => .ok a
  | none => .error .unwrapNone

@[simp] theorem unwrap_some {α : Type} (a : α) : unwrap (some a) = .ok a := rfl
@[simp] theorem unwrap_none {α : Type} : unwrap (none : Option α) = .error .unwrapNone := rfl

/-- `assert!(b)`. -/
def assert (b : Bool) : Res Unit := if b then .ok () else .error .assertFailed

@[simp] theorem assert_true : assert true = .ok () := rfl
@[simp] theorem assert_false : assert false = .error .assertFailed := rfl

/-- `a - b` on `usize`. -/
def usub (a b : Nat) : Res Nat := if b ≤ a then .ok (a - b) else .error .underflow

theorem usub_of_le {a b : Nat} (h : b ≤ a) : usub a b = .ok (a - b) := by simp [usub, h]
theorem usub_of_lt {a b : Nat} (h : a < b) : usub a b = .error .underflow := by
  simp [usub, Nat.not_le.mpr h]

/-- `v[i]` on a slice or `Vec`. -/
def index {β : Type} (v : List β) (i : Nat) : Res β :=
  match v[i]? with
  | some b => .ok b
  | none => .error .outOfBounds

theorem index_of_lt {β : Type} {v : List β} {i : Nat} (h : i < v.length) :
    index v i = .ok v[i] := by simp [index, h]
theorem index_of_ge {β : Type} {v : List β} {i : Nat} (h : v.length ≤ i) :
    index v i = .error .outOfBounds := by simp [index, h]

/-- `&v[a..b]` on a slice or `Vec`: panics if `a > b` or `b > len`. -/
def slice {β : Type} (v : List β) (a b : Nat) : Res (List β) :=
  if a ≤ b ∧ b ≤ v.length then .ok ((v.take b).drop a) else .error .outOfBounds

/-- Drive a step function over ticks `t, t+1, ..., t+n-1`, feeding `x tick` and collecting the outputs:
the loop `for tick in ..  { bar.index.set(tick); out.push(c.next(x)) }` of the project's tests and docs. -/
def runFrom {S I O : Type} (step : Nat → S → I → Res (O × S)) (x : Nat → I) :
    Nat → Nat → S → Res (List O × S)
  | _, 0, s => .ok ([], s)
  | t, n + 1, s => do
    let (o, s') ← step t s (x t)
    let (os, s'') ← runFrom step x (t + 1) n s'
    return (o :: os, s'')

/-- Drive from tick 0. -/
def run {S I O : Type} (step : Nat → S → I → Res (O × S)) (x : Nat → I) (n : Nat) (s : S) :
    Res (List O × S) := runFrom step x 0 n s

/-- The outputs of a run: what an observer of the API sees. -/
def outputs {S I O : Type} (step : Nat → S → I → Res (O × S)) (x : Nat → I) (n : Nat)
    (s0 : Res S) : Res (List O) := do
  let s ← s0
  let (os, _) ← run step x n s
  return os

/-- Refinement principle: if an invariant indexed by the tick is established initially and each step from
it yields `spec t` and re-establishes it, then the run yields `spec 0, ..., spec (n-1)`. -/
theorem runFrom_eq {S I O : Type} {step : Nat → S → I → Res (O × S)} {x : Nat → I}
    {spec : Nat → O} (Inv : Nat → S → Prop) (N : Nat)
    (hstep : ∀ t s, t < N → Inv t s → ∃ s', step t s (x t) = .ok (spec t, s') ∧ Inv (t + 1) s') :
    ∀ n t s, t + n ≤ N → Inv t s →
      ∃ s', runFrom step x t n s = .ok ((List.range' t n).map spec, s') ∧ Inv (t + n) s' := by
  intro n
  induction n with
  | zero => intro t s _ h; exact ⟨s, rfl, h⟩
  | succ n ih =>
    intro t s hN h
    obtain ⟨s', h1, h2⟩ := hstep t s (by omega) h
    obtain ⟨s'', h3, h4⟩ := ih (t + 1) s' (by omega) h2
    refine ⟨s'', ?_, ?_⟩
    · simp [runFrom, h1, h3, List.range'_succ]
    · have : t + (n + 1) = t + 1 + n := by omega
      rw [this]; exact h4

theorem run_eq {S I O : Type} {step : Nat → S → I → Res (O × S)} {x : Nat → I}
    {spec : Nat → O} (Inv : Nat → S → Prop) (N : Nat) (s : S) (h0 : Inv 0 s)
    (hstep : ∀ t s, t < N → Inv t s → ∃ s', step t s (x t) = .ok (spec t, s') ∧ Inv (t + 1) s') :
    ∃ s', run step x N s = .ok ((List.range N).map spec, s') ∧ Inv N s' := by
  obtain ⟨s', h1, h2⟩ := runFrom_eq Inv N hstep N 0 s (by omega) h0
  refine ⟨s', ?_, by simpa using h2⟩
  simpa [run, List.range_eq_range'] using h1

theorem outputs_eq {S I O : Type} {step : Nat → S → I → Res (O × S)} {x : Nat → I}
    {spec : Nat → O} (Inv : Nat → S → Prop) (N : Nat) (s : S) (h0 : Inv 0 s)
    (hstep : ∀ t s, t < N → Inv t s → ∃ s', step t s (x t) = .ok (spec t, s') ∧ Inv (t + 1) s') :
    outputs step x N (.ok s) = .ok ((List.range N).map spec) := by
  obtain ⟨s', h1, _⟩ := run_eq Inv N s h0 hstep
  simp [outputs, h1]

end Pace
