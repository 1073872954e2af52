import Verif.Model.Context
import Verif.Spec.Series

/-!
# Specification vocabulary: the data a run sees
-/

namespace Pace
variable {α : Type}

/-- For the first `N` ticks the column `l` holds the (possibly missing) values `x`. -/
def HasCol (l : List (Option α)) (N : Nat) (x : Nat → Option α) : Prop := ∀ t, t < N → l[t]? = some (x t)

/-- For the first `N` ticks the data consists of complete bars: open `o`, high `h`, low `l`, close `c`, volume `v`. -/
structure Bars (d : DataProvider α) (N : Nat) (o h l c v : Nat → α) : Prop where
  open_ : HasCol d.open_ N (fun t => some (o t))
  high : HasCol d.high N (fun t => some (h t))
  low : HasCol d.low N (fun t => some (l t))
  close : HasCol d.close N (fun t => some (c t))
  volume : HasCol d.volume N (fun t => some (v t))

/-- The data set made of the first `N` bars of five series. -/
def DataProvider.ofSeries (N : Nat) (o h l c v : Nat → Option α) : DataProvider α where
  open_ := hist o N
  high := hist h N
  low := hist l N
  close := hist c N
  volume := hist v N
  time := List.replicate N none
  startTick := 0
  endTick := N - 1

theorem hasCol_hist (N : Nat) (x : Nat → Option α) : HasCol (hist x N) N x := by
  intro t ht; simp [hist, ht]

/-- Every choice of bars is realised by a data set. -/
theorem bars_ofSeries (N : Nat) (o h l c v : Nat → α) :
    Bars (DataProvider.ofSeries N (fun t => some (o t)) (fun t => some (h t)) (fun t => some (l t))
      (fun t => some (c t)) (fun t => some (v t))) N o h l c v :=
  ⟨hasCol_hist _ _, hasCol_hist _ _, hasCol_hist _ _, hasCol_hist _ _, hasCol_hist _ _⟩

/-- An empty column, for components that do not look at the data. -/
def unit' : Nat → Option α := fun _ => none

end Pace
