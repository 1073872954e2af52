import Verif.Props.Core
import Verif.Props.Common
import Verif.Cases.Data

/-!
# Concrete cases of the theorems on the context, the data and the small components (C01–C12)
-/

namespace Pace.Cases
open Pace Spec

/-- Two handles on the same context, advanced in turn. -/
def turns : List CtxOp := [.next 0, .clone 0, .next 1, .next 0, .next 1, .next 0]

theorem turns_valid : Spec.validOps 1 turns := by simp [turns, Spec.validOps]

/-- `C01_iteration` and `C01_index`: three ticks, then nothing, whichever handle is advanced; both handles stand on tick 3 after it. -/
example : ∃ w w', World.new (bars 3) = .ok w ∧ w.exec turns = .ok ([some 0, some 1, some 2, none, none], w') ∧ w'.index = 4 :=
  let ⟨w', h⟩ := C01_iteration (bars 3) _ turns rfl turns_valid
  ⟨_, w', rfl, h, (C01_index (bars 3) _ w' turns _ rfl turns_valid h).1⟩

/-- `C01_in_memory` on a provider made of six columns, the close column being the shortest. -/
example : ∃ (d : DataProvider Nat) (w w' : World), DataProvider.new [some 1, some 2, some 3] [] [] [some 1, none] [] [] = .ok d ∧
    World.new d = .ok w ∧ w.exec turns = .ok ([some 0, some 1, none, none, none], w') :=
  let ⟨w', h⟩ := C01_in_memory [some 1, some 2, some 3] [] [] [some 1, none] [] [] _ _ turns rfl rfl turns_valid
  ⟨_, _, w', rfl, rfl, h⟩

/-- `C02_bar_accessors`: close and volume of bar 2, and the panic on bar 3 of a set of three. -/
example : (⟨bars 3, 2⟩ : Ctx (Ex ℚ)).barClose = .ok (some (q 14)) ∧ (⟨bars 3, 2⟩ : Ctx (Ex ℚ)).barTime = .ok none ∧
    ∃ e, (⟨bars 3, 3⟩ : Ctx (Ex ℚ)).barVolume = .error e :=
  have h := C02_bar_accessors (⟨bars 3, 2⟩ : Ctx (Ex ℚ)) (some (q 14)) none
  have h' := C02_bar_accessors (⟨bars 3, 3⟩ : Ctx (Ex ℚ)) none none
  ⟨h.2.2.2.1.mpr (by decide +kernel), h.2.2.2.2.2.1.mpr (by decide +kernel), h'.2.2.2.2.2.2.2.2.2.2.1.mpr (by decide +kernel)⟩

/-- `C02_is_up`: bar 0 opens at 11 and closes at 13, bar 1 falls. -/
example : (⟨bars 3, 0⟩ : Ctx (Ex ℚ)).isUp = .ok true ∧ (⟨bars 3, 1⟩ : Ctx (Ex ℚ)).isUp = .ok false :=
  ⟨(C02_is_up _ _).mpr ⟨q 13, q 11, by decide +kernel, by decide +kernel, by decide +kernel⟩,
   (C02_is_up _ _).mpr ⟨q 11, q 14, by decide +kernel, by decide +kernel, by decide +kernel⟩⟩

/-- `C02_after_iteration`. -/
example : ∃ e, (⟨⟨[some 1], [some 1], [some 1], [some 1, some 2], [], [], 0, 1⟩, 4⟩ : Ctx Nat).barClose = .error e :=
  (C02_after_iteration [some 1] [some 1] [some 1] [some 1, some 2] [] [] _ _ _ turns _ rfl rfl turns_valid rfl (by decide)).2.1

/-- `C03_look_back`: from tick 2 the close two bars ago is that of bar 0, three bars ago there was none. -/
example : (⟨bars 4, 2⟩ : Ctx (Ex ℚ)).close 2 = .ok (some (q 13)) ∧ (⟨bars 4, 2⟩ : Ctx (Ex ℚ)).close 3 = .ok none :=
  ⟨(C03_look_back (bars 4) 2 2 _).2.2.1.mpr (.inr ⟨by decide, by decide +kernel⟩), (C03_look_back (bars 4) 2 3 _).2.2.1.mpr (.inl ⟨by decide, rfl⟩)⟩

/-- `C03_no_look_ahead`: a set of four bars and one of nine look the same up to tick 3. -/
example (n : Nat) : (⟨bars 4, 3⟩ : Ctx (Ex ℚ)).high n = (⟨bars 9, 3⟩ : Ctx (Ex ℚ)).high n :=
  (C03_no_look_ahead (bars 4) (bars 9) 3 n (by decide +kernel) (by decide +kernel) (by decide +kernel) (by decide +kernel)).1

/-- `C03_ranges`: the last two closes at tick 2, oldest first. -/
example : (⟨bars 4, 2⟩ : Ctx (Ex ℚ)).closes 2 = .ok [some (q 11), some (q 14)] :=
  (C03_ranges (bars 4) 2 2 _).2.2.2.1.mpr ⟨by decide, by decide, by decide +kernel, rfl, fun j hj => by
    obtain rfl | rfl : j = 0 ∨ j = 1 := by omega
    all_goals decide +kernel⟩

/-- `C04_new`, `C04_from_values` and `C04_context`: columns of different lengths, a single column, no bars. -/
example : DataProvider.new [some 1] [some 2] [] [some 3, none] [] [] = .ok (⟨[some 1], [some 2], [], [some 3, none], [], [], 0, 1⟩ : DataProvider Nat) ∧
    (∃ e, DataProvider.new [some 1] [some 2] [] [] [] [] = (.error e : Res (DataProvider Nat))) ∧
    DataProvider.fromValues [some 7, none] = .ok (⟨[some 7, none], [some 7, none], [some 7, none], [some 7, none], [some 7, none], [none, none], 0, 1⟩ : DataProvider Nat) ∧
    World.new (⟨[some 1], [some 2], [], [some 3, none], [], [], 0, 1⟩ : DataProvider Nat) = .ok ⟨0, false, [⟨0, 1, 2⟩]⟩ :=
  ⟨(C04_new _ _ _ _ _ _).2 (by simp), (C04_new _ _ _ _ _ _).1 rfl, (C04_from_values _).2 (by simp),
   (C04_context [some 1] [some 2] [] [some 3, none] [] [] _ rfl).1⟩

/-- `C05_fixnan` and `C05_latest_unique`: in the gap at tick 4 the value of tick 3 is repeated. -/
example : ∃ y, Runs (total FixNan.next) (.ok FixNan.new) gap 6 y ∧ y 4 = some 1 :=
  let ⟨y, h, h'⟩ := C05_fixnan gap 6
  ⟨y, h, C05_latest_unique gap 4 _ _ (h' 4 (by decide)) (by
    refine .inr ⟨3, 1, by decide, by decide +kernel, rfl, fun j h1 h2 => ?_⟩
    obtain rfl : j = 4 := by omega
    rfl)⟩

/-- `C06_*` and `C07_*` for a cache of capacity 3 after 3, 1, 4, 1, 5. -/
example : (∃ pre l, [3, 1, 4, 1, 5] = pre ++ l ∧ l.length = 3 ∧ (Spec.cacheAfter 3 [3, 1, 4, 1, 5]).all = .ok l) ∧
    (Spec.cacheAfter 3 [3, 1, 4, 1, 5]).last = some 5 ∧ (Spec.cacheAfter 3 [3, 1, 4, 1, 5]).first = .ok (some 4) ∧
    (Spec.cacheAfter 3 [3, 1]).first = .ok none ∧ (Spec.cacheAfter 3 [3, 1, 4, 1, 5]).isFilled = true ∧
    (Spec.cacheAfter 3 [3, 1, 4, 1, 5]).get 1 = .ok (some 1) ∧ (Spec.cacheAfter 3 [3, 1, 4, 1, 5]).get 5 = .error .underflow ∧
    (Spec.cacheAfter 3 [some 3, some 1, none]).firstUnwrapped = .ok (some 3) ∧
    (Spec.cacheAfter 3 [3, 1, 4, 1, 5]).size = 5 :=
  ⟨C06_all 3 _, (C06_last 3 _).trans rfl, ((C06_first 3 _).1 (by decide)).trans rfl, ((C06_first 3 _).1 (by decide)).trans rfl,
   (C06_is_filled 3 _).mpr (by decide), (C06_get 3 1 _).trans rfl, (C06_get 3 5 _).trans rfl, ((C06_unwrapped 3 _).2.1 (by decide)).trans rfl,
   C07_size 3 _⟩

example : ∃ vs : List Nat, 1000 < (Spec.cacheAfter 1000 vs).size := C07_size_unbounded 1000

example : (Spec.cacheAfter 3 [3, 1, 4, 1, 5]).get 4 = .ok (some 3) := ((C07_get 3 4 _).1 _).mpr ⟨by decide, rfl⟩

/-- `C08_incremental_cache` after three values. -/
example : ([3, 1, 4].foldl IncrementalCache.next IncrementalCache.new).get 1 = .ok 1 ∧
    ∃ e, ([3, 1, 4].foldl IncrementalCache.next IncrementalCache.new).get 3 = .error e :=
  have h := C08_incremental_cache [3, 1, 4]
  ⟨(h.2.2.2.2.1 1 1).mpr rfl, h.2.2.2.2.2.2 3 (by decide)⟩

/-- `C09_window_validator`: a window of 2 is not valid while it contains the gap. -/
example : outputs (fun t => WindowValidator.next ⟨bars 7, t⟩) (fun t => (gap t).map q) 7 (WindowValidator.new 2)
    = .ok [true, true, true, true, false, false, true] :=
  Eq.trans (C09_window_validator (bars 7) 2 (by decide) _ 7) (by decide +kernel)

/-- `C09_new` and `C09_true_before_filled`. -/
example : (∃ e, WindowValidator.new 0 = .error e) ∧ ¬ (∃ e, WindowValidator.new 3 = .error e) ∧
    outputs (fun t => WindowValidator.next ⟨bars 1, t⟩) (fun _ => some (q 7)) 1 (WindowValidator.new 5) = .ok [true] :=
  ⟨(C09_new 0).mpr rfl, fun h => absurd ((C09_new 3).mp h) (by decide), C09_true_before_filled (bars 1) (q 7)⟩

/-- `C10_position`. -/
example : outputs (total fun s (_ : Unit) => Position.next s) unit 4 (.ok Position.new) = .ok [0, 1, 2, 3] := C10_position 4

/-- `C11_plain`, `C11_combined` and `C11_mean` on bar 0: open 11, high 14, low 10, close 13. -/
example : Src.next (⟨bars 1, 0⟩ : Ctx (Ex ℚ)) .high = .ok (some (q 14)) ∧ Src.next (⟨bars 1, 0⟩ : Ctx (Ex ℚ)) .ohlc4 = .ok (some (q 12)) :=
  ⟨(C11_plain _ _).2.1.mpr (by decide +kernel), (C11_combined _ _).1.mpr
    ⟨q 11, q 14, q 10, q 13, by decide +kernel, by decide +kernel, by decide +kernel, by decide +kernel, by decide +kernel⟩⟩

example : hlc3 (q 14) (q 10) (q 13) = q (37 / 3) ∧ (10 : ℚ) ≤ (14 + 10 + 13) / 3 :=
  have h := C11_mean (11 : ℚ) 14 10 13
  ⟨h.2.1.trans (by decide +kernel), ((h.2.2.2 10 14 (by norm_num) (by norm_num) (by norm_num) (by norm_num) (by norm_num) (by norm_num) (by norm_num) (by norm_num)).2.1).1⟩

/-- `C12_ps`, `C12_div_finite` and `C12_div_rounded`. -/
example : psAdd (some (q 2)) (some (q 3)) = some (q 5) ∧ psAdd (some (q 2)) none ≠ some (q 2) ∧ psNz (none : Option (Ex ℚ)) = q 0 :=
  ⟨(C12_ps _ _ _).1.mpr ⟨q 2, q 3, rfl, rfl, by decide +kernel⟩, fun h => by obtain ⟨_, _, _, h', _⟩ := (C12_ps (some (q 2)) none (q 2)).1.mp h; exact absurd h' (by simp),
   (C12_ps none none (q 0)).2.2.2.2.2.2.mpr (.inr ⟨rfl, by decide +kernel⟩)⟩

example : psDiv (some (q 2)) (some (q 3)) = some (q (2 / 3)) ∧ psDiv (some (q 2)) (some (q 0)) = none :=
  ⟨(C12_div_finite 2 3).trans (by decide +kernel), (C12_div_finite 2 0).trans (by decide +kernel)⟩

example : (3 : ℚ) ≠ 0 ∧ q (2 / 3) = (Rounding.exact ℚ).rnd (2 / 3) :=
  C12_div_rounded (Rounding.exact ℚ) rfl 2 3 _ (by decide +kernel)

end Pace.Cases
