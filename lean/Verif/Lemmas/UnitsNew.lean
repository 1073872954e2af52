import Verif.Lemmas.UnitsContent
import Verif.Model.Defaults

/-!
# Newly created components carry no prices
-/

set_option linter.unusedSectionVars false

namespace Pace
variable {α : Type} [F64 α]

/-- The state made by `x` is unchanged by `f`. -/
abbrev Fixed {S : Type} (f : S → S) (x : Res S) : Prop := x.map f = x

theorem Fixed.bind {β γ : Type} {x : Res β} {g : β → Res γ} {f : γ → γ} (h : ∀ a, x = .ok a → Fixed f (g a)) : Fixed f (x >>= g) := by
  cases x with
  | error e => rfl
  | ok a => exact h a rfl
theorem Fixed.ret {γ : Type} {b : γ} {f : γ → γ} (h : f b = b) : Fixed f (pure b : Res γ) := congrArg Except.ok h
theorem Fixed.state {γ : Type} {x : Res γ} {f : γ → γ} {b : γ} (h : Fixed f x) (e : x = .ok b) : f b = b := by
  subst e; exact Except.ok.inj h

namespace Linear
variable (D : Linear α)

theorem new_sma (n : Nat) : Fixed (Sma.rescale D.f) (Sma.new n) :=
  .bind fun _ _ => .bind fun _ _ => .ret (by simp [Sma.rescale, D.zero])
theorem new_sum (n : Nat) : Fixed (Sum.rescale D.f) (Sum.new n) :=
  .bind fun _ _ => .bind fun _ _ => .ret (by simp [Sum.rescale, D.zero])
theorem new_emaAlpha (n : Nat) (a : α) : Fixed (Ema.rescale D.f) (Ema.withAlpha n a) :=
  .bind fun _ _ => .bind fun _ h => .ret (by simp [Ema.rescale, (D.new_sma n).state h])
theorem new_ema (n : Nat) : Fixed (Ema.rescale D.f) (Ema.new n) := D.new_emaAlpha ..
theorem new_rma (n : Nat) : Fixed (Rma.rescale D.f) (Rma.new n) :=
  .bind fun _ _ => .bind fun _ h => .ret (by simp [Rma.rescale, (D.new_emaAlpha _ _).state h])
theorem new_wma (n : Nat) : Fixed (Wma.rescale D.f) (Wma.new n) :=
  .bind fun _ _ => .bind fun _ _ => .ret (by simp [Wma.rescale])
theorem new_swma : Fixed (Swma.rescale D.f) Swma.new := .bind fun _ _ => .ret (by simp [Swma.rescale])
theorem new_ma (k : MaKind) (n : Nat) : Fixed (Ma.rescale D.f) (Ma.new k n) := by
  cases k
  · exact .bind fun _ h => .ret (by simp [Ma.rescale, (D.new_sma _).state h])
  · exact .bind fun _ h => .ret (by simp [Ma.rescale, (D.new_ema _).state h])
  · exact .bind fun _ h => .ret (by simp [Ma.rescale, (D.new_rma _).state h])
  · exact .bind fun _ h => .ret (by simp [Ma.rescale, D.new_swma.state h])
theorem new_change (n : Nat) : Fixed (Change.rescale D.f) (Change.new n) := .bind fun _ _ => .ret (by simp [Change.rescale])
theorem new_awesome (k₁ k₂ : MaKind) (n₁ n₂ : Nat) : Fixed (AwesomeOscillator.rescale D.f) (do
    let long ← Ma.new k₂ n₂
    let short ← Ma.new k₁ n₁
    return .new short long) :=
  .bind fun _ h => .bind fun _ h' => .ret (by simp [AwesomeOscillator.rescale, AwesomeOscillator.new, (D.new_ma _ _).state h, (D.new_ma _ _).state h'])
theorem new_macd (k₁ k₂ k₃ : MaKind) (n₁ n₂ n₃ : Nat) : Fixed (Macd.rescale D.f) (do
    let short ← Ma.new k₁ n₁
    let long ← Ma.new k₂ n₂
    let signal ← Ma.new k₃ n₃
    return ⟨short, long, signal⟩) :=
  .bind fun _ h1 => .bind fun _ h2 => .bind fun _ h3 => .ret (by
    simp [Macd.rescale, (D.new_ma _ _).state h1, (D.new_ma _ _).state h2, (D.new_ma _ _).state h3])
end Linear

namespace Dilation
variable (D : Dilation α)

theorem new_dev (n : Nat) : Fixed (Dev.rescale D.f) (Dev.new n) :=
  .bind fun _ _ => .bind fun _ h => .ret (by simp [Dev.rescale, (D.new_sma n).state h])
theorem new_roc (n : Nat) : Fixed (Roc.rescale D.f) (Roc.new n) := .bind fun _ _ => .ret (by simp [Roc.rescale])
theorem new_prank (n : Nat) : Fixed (Prank.rescale D.f) (Prank.new n) := .bind fun _ _ => .ret (by simp [Prank.rescale])
theorem new_highest (n : Nat) : Fixed (Highest.rescale D.f) (Highest.new n) := .bind fun _ _ => .ret (by simp [Highest.rescale])
theorem new_lowest (n : Nat) : Fixed (Lowest.rescale D.f) (Lowest.new n) := .bind fun _ _ => .ret (by simp [Lowest.rescale])
theorem new_stoch (n : Nat) : Fixed (Stoch.rescale D.f) (Stoch.new n) := .bind fun _ _ => .ret (by simp [Stoch.rescale])
theorem new_atr (n : Nat) : Fixed (Atr.rescale D.f) (Atr.new n) :=
  .bind fun _ _ => .bind fun _ h => .ret (by simp [Atr.rescale, (D.new_rma n).state h])
theorem new_rsi (n : Nat) : Fixed (Rsi.rescale D.f) (Rsi.new n) :=
  .bind fun _ _ => .bind fun _ h => .bind fun _ h' => .ret (by simp [Rsi.rescale, (D.new_rma n).state h, (D.new_rma n).state h'])

theorem new_cmf (n : Nat) : Fixed (ChaikinMoneyFlow.rescale D.f) (ChaikinMoneyFlow.new n) :=
  .bind fun _ h => .bind fun _ h' => .ret (by simp [ChaikinMoneyFlow.rescale, (D.new_sum _).state h, (D.new_sum _).state h'])
theorem new_chandeKroll (p q : Nat) (x : α) : Fixed (ChandeKrollStop.rescale D.f) (ChandeKrollStop.new p q x) :=
  .bind fun _ h1 => .bind fun _ h2 => .bind fun _ h3 => .bind fun _ h4 => .bind fun _ h5 => .ret (by
    simp [ChandeKrollStop.rescale, (D.new_atr _).state h1, (D.new_highest _).state h2, (D.new_lowest _).state h3,
      (D.new_highest _).state h4, (D.new_lowest _).state h5])
theorem new_cmo (n : Nat) : Fixed (ChandeMomentumOscillator.rescale D.f) (ChandeMomentumOscillator.new n) :=
  .bind fun _ _ => .bind fun _ h => .bind fun _ h' => .ret (by
    simp [ChandeMomentumOscillator.rescale, (D.new_sum _).state h, (D.new_sum _).state h'])
theorem new_chop (n : Nat) : Fixed (ChoppinessIndex.rescale D.f) (ChoppinessIndex.new n) :=
  .bind fun _ h1 => .bind fun _ h2 => .bind fun _ h3 => .bind fun _ h4 => .ret (by
    simp [ChoppinessIndex.rescale, (D.new_atr _).state h1, (D.new_sum _).state h2, (D.new_highest _).state h3, (D.new_lowest _).state h4])
theorem new_cci (n : Nat) : Fixed (CommodityChannelIndex.rescale D.f) (CommodityChannelIndex.new n) :=
  .bind fun _ h => .bind fun _ h' => .ret (by simp [CommodityChannelIndex.rescale, (D.new_sma _).state h, (D.new_dev _).state h'])
theorem new_connors (a b n : Nat) : Fixed (ConnorsRsi.rescale D.f) (ConnorsRsi.new a b n) :=
  .bind fun _ h => .bind fun _ _ => .bind fun _ _ => .bind fun _ h' => .ret (by
    simp [ConnorsRsi.rescale, (D.new_rsi _).state h, (D.new_roc _).state h'])
theorem new_coppock (a b n : Nat) : Fixed (CoppockCurve.rescale D.f) (CoppockCurve.new a b n) :=
  .bind fun _ _ => .bind fun _ h => .bind fun _ h' => .ret (by
    simp [CoppockCurve.rescale, (D.new_roc _).state h, (D.new_roc _).state h'])
theorem new_dmi (a b : Nat) : Fixed (Dmi.rescale D.f) (Dmi.new a b) :=
  .bind fun _ h1 => .bind fun _ h2 => .bind fun _ h3 => .bind fun _ _ => .ret (by
    simp [Dmi.rescale, (D.new_rma _).state h1, (D.new_rma _).state h2, (D.new_rma _).state h3])
theorem new_donchian (n : Nat) : Fixed (DonchianChannels.rescale D.f) (DonchianChannels.new n) :=
  .bind fun _ h => .bind fun _ h' => .ret (by simp [DonchianChannels.rescale, (D.new_highest _).state h, (D.new_lowest _).state h'])
theorem new_maPair (k₁ k₂ : MaKind) (n₁ n₂ : Nat) : Fixed (MaPair.rescale D.f) (do
    let short ← Ma.new k₁ n₁
    let long ← Ma.new k₂ n₂
    return ⟨short, long⟩) :=
  .bind fun _ h1 => .bind fun _ h2 => .ret (by simp [MaPair.rescale, (D.new_ma _ _).state h1, (D.new_ma _ _).state h2])
theorem new_maPair' (k₁ k₂ : MaKind) (n₁ n₂ : Nat) : Fixed (MaPair.rescale D.f) (do
    let long ← Ma.new k₂ n₂
    let short ← Ma.new k₁ n₁
    return ⟨short, long⟩) :=
  .bind fun _ h1 => .bind fun _ h2 => .ret (by simp [MaPair.rescale, (D.new_ma _ _).state h1, (D.new_ma _ _).state h2])
theorem new_vigor (n : Nat) : Fixed (RelativeVigorIndex.rescale D.f) (RelativeVigorIndex.new n) :=
  .bind fun _ h1 => .bind fun _ h2 => .bind fun _ h3 => .bind fun _ h4 => .bind fun _ _ => .ret (by
    simp [RelativeVigorIndex.rescale, D.new_swma.state h1, D.new_swma.state h2, (D.new_sum _).state h3, (D.new_sum _).state h4])
theorem new_stochRsi (a b k d : Nat) : Fixed (StochRsi.rescale D.f) (StochRsi.new a b k d) :=
  .bind fun _ h1 => .bind fun _ _ => .bind fun _ _ => .bind fun _ _ => .ret (by simp [StochRsi.rescale, (D.new_rsi _).state h1])
theorem new_ultimate (a b c : Nat) : Fixed (UltimateOscillator.rescale D.f) (UltimateOscillator.new a b c) :=
  .bind fun _ h1 => .bind fun _ h2 => .bind fun _ h3 => .bind fun _ h4 => .bind fun _ h5 => .bind fun _ h6 => .ret (by
    simp [UltimateOscillator.rescale, (D.new_sum _).state h1, (D.new_sum _).state h2, (D.new_sum _).state h3, (D.new_sum _).state h4,
      (D.new_sum _).state h5, (D.new_sum _).state h6])
theorem new_vortex (n : Nat) : Fixed (Vortex.rescale D.f) (Vortex.new n) :=
  .bind fun _ h1 => .bind fun _ h2 => .bind fun _ h3 => .bind fun _ h4 => .ret (by
    simp [Vortex.rescale, (D.new_sum _).state h1, (D.new_sum _).state h2, (D.new_sum _).state h3, (D.new_atr _).state h4])
theorem new_williams (n : Nat) : Fixed (WilliamsPercentRank.rescale D.f) (WilliamsPercentRank.new n) :=
  .bind fun _ h => .bind fun _ h' => .ret (by simp [WilliamsPercentRank.rescale, (D.new_highest _).state h, (D.new_lowest _).state h'])

end Dilation
end Pace
