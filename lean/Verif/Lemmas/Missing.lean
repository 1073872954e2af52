import Verif.Spec.Missing
import Verif.Lemmas.Cache
import Verif.Lemmas.FindMax
import Verif.Lemmas.TaRuns2
import Verif.Model.Defaults
import Verif.Lemmas.Reflect
import Mathlib.Order.Monotone.Basic

/-!
# Panics of single steps
-/

set_option linter.unusedSectionVars false
set_option linter.unusedSimpArgs false

namespace Pace
open Spec
variable {α : Type}

/-- The call succeeds with a result in `P`, or something is missing. -/
def Good {A : Type} (c : Ctx α) (P : A → Prop) : Res A → Prop
  | .ok a => P a
  | .error e => Missing c e

namespace Good
variable {A B : Type} {c : Ctx α} {P : A → Prop} {Q : B → Prop}

theorem bind {m : Res A} {f : A → Res B} (h : Good c P m) (hf : ∀ a, P a → Good c Q (f a)) : Good c Q (m >>= f) := by
  cases m with
  | error e => exact h
  | ok a => exact hf a h

theorem step {m : Res A} {f : A → Res B} (h : Good c (fun _ => True) m) (hf : ∀ a, Good c Q (f a)) : Good c Q (m >>= f) :=
  h.bind fun a _ => hf a

theorem step' {m : Res A} {f : A → Res B} (h : Good c P m) (hf : ∀ a, Good c Q (f a)) : Good c Q (m >>= f) :=
  h.bind fun a _ => hf a

theorem mono {P' : A → Prop} {m : Res A} (h : Good c P m) (hp : ∀ a, P a → P' a) : Good c P' m := by
  cases m with
  | error e => exact h
  | ok a => exact hp a h

theorem unwrap (o : Option A) : Good c (fun a => o = some a) (Pace.unwrap o) := by
  cases o with
  | none => exact .inl rfl
  | some a => exact rfl

theorem unwrap' (o : Option A) : Good c (fun _ => True) (Pace.unwrap o) := (unwrap o).mono fun _ _ => trivial

theorem of_ok {m : Res A} {a : A} (h : m = .ok a) (hp : P a) : Good c P m := by rw [h]; exact hp

private theorem idx {l : List A} {i : Nat} (h : HasBar c → i < l.length) : Good c (fun _ => True) (Pace.index l i) := by
  by_cases hi : i < l.length
  · rw [index_of_lt hi]; exact trivial
  · rw [index_of_ge (Nat.le_of_not_lt hi)]; exact .inr ⟨rfl, fun hb => hi (h hb)⟩

theorem barOpen : Good c (fun _ => True) c.barOpen := idx fun h => h.open_
theorem barHigh : Good c (fun _ => True) c.barHigh := idx fun h => h.high
theorem barLow : Good c (fun _ => True) c.barLow := idx fun h => h.low
theorem barClose : Good c (fun _ => True) c.barClose := idx fun h => h.close
theorem barVolume : Good c (fun _ => True) c.barVolume := idx fun h => h.volume

theorem high (n : Nat) : Good c (fun _ => True) (c.high n) := by
  unfold Ctx.high
  split
  · exact trivial
  · exact idx fun h => lt_of_le_of_lt (Nat.sub_le _ _) h.high
theorem low (n : Nat) : Good c (fun _ => True) (c.low n) := by
  unfold Ctx.low
  split
  · exact trivial
  · exact idx fun h => lt_of_le_of_lt (Nat.sub_le _ _) h.low
theorem close (n : Nat) : Good c (fun _ => True) (c.close n) := by
  unfold Ctx.close
  split
  · exact trivial
  · exact idx fun h => lt_of_le_of_lt (Nat.sub_le _ _) h.close

theorem atLength {n : Nat} (hn : 1 ≤ n) : Good c (fun b => b = decide (n ≤ c.index + 1)) (c.atLength n) := by
  unfold Ctx.atLength
  rw [usub_of_le hn]
  exact decide_eq_decide.mpr (by omega)

private theorem slc {l : List A} {a b : Nat} (hab : a < b) (h : HasBar c → b ≤ l.length) : Good c (fun r => r ≠ []) (slice l a b) := by
  unfold slice
  by_cases hb : b ≤ l.length
  · rw [if_pos ⟨hab.le, hb⟩]
    intro hn
    have := congrArg List.length hn
    simp at this
    omega
  · rw [if_neg (by omega)]
    exact .inr ⟨rfl, fun h' => hb (h h')⟩

private theorem rangeStart {n : Nat} (hn : 1 ≤ n) (hl : n ≤ c.index + 1) : c.rangeStart n = .ok (c.index - (n - 1)) := by
  unfold Ctx.rangeStart
  rw [usub_of_le hn]
  exact usub_of_le (by omega)

theorem highs {n : Nat} (hn : 1 ≤ n) (hl : n ≤ c.index + 1) : Good c (fun r => r ≠ []) (c.highs n) := by
  unfold Ctx.highs DataProvider.getHighForRange
  rw [rangeStart hn hl]
  exact slc (by omega) fun h => h.high
theorem lows {n : Nat} (hn : 1 ≤ n) (hl : n ≤ c.index + 1) : Good c (fun r => r ≠ []) (c.lows n) := by
  unfold Ctx.lows DataProvider.getLowForRange
  rw [rangeStart hn hl]
  exact slc (by omega) fun h => h.low

theorem src [F64 α] (k : SrcKind) : Good c (fun _ => True) (Src.next c k) := by
  cases k <;> unfold Src.next
  case open_ => exact barOpen
  case high => exact barHigh
  case low => exact barLow
  case close => exact barClose
  case volume => exact barVolume
  case ohlc4 =>
    exact barOpen.step fun _ => (unwrap' _).step fun _ => barHigh.step fun _ => (unwrap' _).step fun _ => barLow.step fun _ =>
      (unwrap' _).step fun _ => barClose.step fun _ => (unwrap' _).step fun _ => trivial
  case hlc3 =>
    exact barHigh.step fun _ => (unwrap' _).step fun _ => barLow.step fun _ =>
      (unwrap' _).step fun _ => barClose.step fun _ => (unwrap' _).step fun _ => trivial
  case hl2 => exact barHigh.step fun _ => (unwrap' _).step fun _ => barLow.step fun _ => (unwrap' _).step fun _ => trivial

end Good

/-! ## Components -/

/-- The proof that a component panics only because something is missing: `Inv b` holds of its states while no recorded bar is later than `b`. -/
structure Sound {S I O : Type} (next : Ctx α → S → I → Res (O × S)) (new : Res S) : Type where
  Inv : Nat → S → Prop
  mono : ∀ {b b' s}, Inv b s → b ≤ b' → Inv b' s
  step : ∀ c s v, Inv c.index s → Good c (fun r => Inv c.index r.2) (next c s v)
  init : ∀ s, new = .ok s → Inv 0 s
  fails : ∀ e, new = .error e → e = .assertFailed

theorem Sound.only {S I O : Type} {next : Ctx α → S → I → Res (O × S)} {new : Res S} (h : Sound next new) : OnlyMissing next new := by
  refine ⟨h.fails, fun st hst d τ hτ x N e he => ?_⟩
  have key : ∀ n i s, h.Inv (τ i) s → ∀ e, runFrom (fun i => next ⟨d, τ i⟩) x i n s = .error e → ∃ j, j < i + n ∧ Missing ⟨d, τ j⟩ e := by
    intro n
    induction n with
    | zero => intro i s _ e he; cases he
    | succ n ih =>
      intro i s hs e he
      simp only [runFrom] at he
      have g := h.step ⟨d, τ i⟩ s (x i) hs
      cases hr : next ⟨d, τ i⟩ s (x i) with
      | error e' =>
        rw [hr] at he g
        have := Except.error.inj he
        subst this
        exact ⟨i, by omega, g⟩
      | ok r =>
        rw [hr] at he g
        have g : h.Inv (τ i) r.2 := g
        simp only [Res.ok_bind] at he
        cases hr2 : runFrom (fun i => next ⟨d, τ i⟩) x (i + 1) n r.2 with
        | error e' =>
          rw [hr2] at he
          have := Except.error.inj he
          subst this
          obtain ⟨j, h1, h2⟩ := ih (i + 1) r.2 (h.mono g (hτ (Nat.le_succ i))) _ hr2
          exact ⟨j, by omega, h2⟩
        | ok r2 => rw [hr2] at he; cases he
  unfold calls at he
  rw [hst] at he
  simp only [outputs, run, Res.ok_bind] at he
  cases hr : runFrom (fun i => next ⟨d, τ i⟩) x 0 N st with
  | error e' =>
    rw [hr] at he
    have := Except.error.inj he
    subst this
    obtain ⟨j, h1, h2⟩ := key N 0 st (h.mono (h.init st hst) (Nat.zero_le _)) _ hr
    exact ⟨j, by omega, h2⟩
  | ok r => rw [hr] at he; cases he

/-- Constructors: only assertions fail. -/
def Asserts {A : Type} (m : Res A) : Prop := ∀ e, m = .error e → e = .assertFailed

theorem Asserts.bind {A B : Type} {m : Res A} {f : A → Res B} (h : Asserts m) (hf : ∀ a, Asserts (f a)) : Asserts (m >>= f) := by
  intro e he
  cases m with
  | error e' => have : e' = e := Except.error.inj he; exact h e (by rw [this])
  | ok a => exact hf a e he

theorem Asserts.pure {A : Type} (a : A) : Asserts (.ok a : Res A) := fun e he => by cases he
theorem Asserts.assert (b : Bool) : Asserts (Pace.assert b) := by
  intro e he
  cases b with
  | true => cases he
  | false => exact (Except.error.inj he).symm

/-- A component that ignores the context. -/
def Sound.withSrc [F64 α] {S O : Type} {next : Ctx α → S → Option α → Res (O × S)} {new : Res S} (h : Sound next new) (k : SrcKind) :
    Sound (barsOnly (Pace.withSrc k next)) new where
  Inv := h.Inv
  mono := h.mono
  step c s _ hs := by
    unfold barsOnly Pace.withSrc
    exact (Good.src k).step fun a => h.step c s a hs
  init := h.init
  fails := h.fails

def Sound.withSrc2 [F64 α] {S O : Type} {next : Ctx α → S → Option α × Option α → Res (O × S)} {new : Res S} (h : Sound next new)
    (k1 k2 : SrcKind) : Sound (barsOnly (Pace.withSrc2 k1 k2 next)) new where
  Inv := h.Inv
  mono := h.mono
  step c s _ hs := by
    unfold barsOnly Pace.withSrc2
    exact (Good.src k1).step fun a => (Good.src k2).step fun b => h.step c s (a, b) hs
  init := h.init
  fails := h.fails

/-- A component without state. -/
def Sound.ofNoState {O : Type} (next : Ctx α → Res O) (h : ∀ c, Good c (fun _ => True) (next c)) : Sound (noState next) (.ok ()) where
  Inv _ _ := True
  mono _ _ := trivial
  step c _ _ _ := (h c).step fun _ => trivial
  init _ _ := trivial
  fails e he := by cases he

/-! ## ta -/

section
variable [F64 α]

theorem cache_first_good {s : WindowCache (Option α)} (hs : 1 ≤ s.length) {c : Ctx α} : Good c (fun _ => True) s.firstUnwrapped := by
  obtain ⟨N, vs⟩ := s
  unfold WindowCache.firstUnwrapped
  rw [cache_first hs]
  exact trivial

theorem cache_all_good (s : WindowCache (Option α)) (v : Option α) (hs : 1 ≤ s.length) {c : Ctx α} :
    Good c (fun l => l ≠ [] ∧ l.length ≤ s.length) (s.next v).all := by
  obtain ⟨N, vs⟩ := s
  have : (⟨N, vs ++ [v]⟩ : WindowCache (Option α)).all = .ok ((vs ++ [v]).drop ((vs ++ [v]).length - N)) := cache_all _ _
  refine Good.of_ok this ?_
  have hN : 1 ≤ N := hs
  constructor
  · intro h
    have := congrArg List.length h
    simp at this
    omega
  · simp; omega

theorem validator_good {v : WindowValidator} {c : Ctx α} (h : v.lastNoneIndex ≤ c.index) (o : Option α) :
    Good c (fun r => r.2.lastNoneIndex ≤ c.index) (v.next c o) := by
  unfold WindowValidator.next
  cases o with
  | none => exact le_rfl
  | some a =>
    cases hw : v.wasNone with
    | false => simp only [hw]; exact h
    | true =>
      simp only [hw]
      show Good c _ (usub c.index v.lastNoneIndex >>= _)
      rw [usub_of_le h]
      exact h

def smaS (len : Nat) : Sound (Sma.next (α := α)) (Sma.new len) where
  Inv b s := 1 ≤ s.inputCache.length ∧ s.batchValidator.lastNoneIndex ≤ b
  mono h hb := ⟨h.1, h.2.trans hb⟩
  step c s v h := by
    unfold Sma.next
    by_cases hl : s.length = 1
    · rw [if_pos hl]; exact h
    rw [if_neg hl]
    refine (validator_good h.2 v).bind ?_
    rintro ⟨r, bv⟩ hr
    have hc : 1 ≤ (s.inputCache.next v).length := h.1
    exact (cache_first_good hc).step fun f => ⟨h.1, hr⟩
  init s h := by
    unfold Sma.new at h
    by_cases hl : 1 ≤ len
    · have e : (Sma.new len : Res (Sma α)) = .ok ⟨len, lit (len : ℚ), lit 0, WindowCache.new len, ⟨len, 0, false⟩⟩ := by
        simp [Sma.new, WindowValidator.new, hl]
      have := Except.ok.inj (e.symm.trans h)
      subst this
      exact ⟨hl, le_rfl⟩
    · simp [hl] at h
  fails := by
    refine Asserts.bind (.assert _) fun _ => Asserts.bind ?_ fun _ => .pure _
    exact Asserts.bind (.assert _) fun _ => .pure _

def sumS (len : Nat) : Sound (Sum.next (α := α)) (Sum.new len) where
  Inv b s := 1 ≤ s.inputCache.length ∧ s.batchValidator.lastNoneIndex ≤ b
  mono h hb := ⟨h.1, h.2.trans hb⟩
  step c s v h := by
    unfold Sum.next
    have hc : 1 ≤ (s.inputCache.next v).length := h.1
    refine (cache_first_good hc).step fun f => ?_
    refine (validator_good h.2 v).bind ?_
    rintro ⟨r, bv⟩ hr
    exact ⟨h.1, hr⟩
  init s h := by
    unfold Sum.new at h
    by_cases hl : 1 ≤ len
    · have e : (Sum.new len : Res (Sum α)) = .ok ⟨len, lit 0, WindowCache.new len, ⟨len, 0, false⟩⟩ := by
        simp [Sum.new, WindowValidator.new, hl]
      have := Except.ok.inj (e.symm.trans h)
      subst this
      exact ⟨hl, le_rfl⟩
    · simp [hl] at h
  fails := by
    refine Asserts.bind (.assert _) fun _ => Asserts.bind ?_ fun _ => .pure _
    exact Asserts.bind (.assert _) fun _ => .pure _

theorem assert_ok {b : Bool} {u : Unit} (h : Pace.assert b = .ok u) : b = true := by
  cases b with
  | true => rfl
  | false => cases h

/-- Any exponential average. -/
def emaS' (len : Nat) (al : α) : Sound (Ema.next (α := α)) (Ema.withAlpha len al) where
  Inv b s := 1 ≤ s.length ∧ (smaS (α := α) 1).Inv b s.sma
  mono h hb := ⟨h.1, (smaS 1).mono h.2 hb⟩
  step c s v h := by
    unfold Ema.next
    by_cases hl : s.length = 1
    · rw [if_pos hl]; exact h
    rw [if_neg hl, usub_of_le h.1]
    simp only [Res.ok_bind]
    refine (Good.atLength (by omega)).step' fun b => ?_
    cases b with
    | false =>
      refine ((smaS 1).step c s.sma v h.2).bind ?_
      rintro ⟨o, m⟩ hm
      exact ⟨h.1, hm⟩
    | true =>
      simp only [Bool.not_true, Bool.false_eq_true, if_false]
      cases s.prevValue with
      | some p => exact (Good.unwrap' v).step fun a => h
      | none =>
        refine ((smaS 1).step c s.sma v h.2).bind ?_
        rintro ⟨o, m⟩ hm
        exact ⟨h.1, hm⟩
  init s h := by
    unfold Ema.withAlpha at h
    obtain ⟨_, h0, h⟩ := Res.bind_ok h
    obtain ⟨m, hm, h⟩ := Res.bind_ok h
    have := Except.ok.inj h; subst this
    exact ⟨by simpa using assert_ok h0, (smaS len).init m hm⟩
  fails := Asserts.bind (.assert _) fun _ => Asserts.bind (smaS len).fails fun _ => .pure _

def emaS (len : Nat) : Sound (Ema.next (α := α)) (Ema.new len) := emaS' len _

def rmaS (len : Nat) : Sound (Rma.next (α := α)) (Rma.new len) where
  Inv b s := (emaS (α := α) 1).Inv b s.ema
  mono h hb := (emaS 1).mono h hb
  step c s v h := by
    unfold Rma.next
    refine ((emaS 1).step c s.ema v h).bind ?_
    rintro ⟨o, m⟩ hm
    exact hm
  init s h := by
    unfold Rma.new at h
    obtain ⟨_, h0, h⟩ := Res.bind_ok h
    obtain ⟨m, hm, h⟩ := Res.bind_ok h
    have := Except.ok.inj h; subst this
    exact (emaS' len _).init m hm
  fails := Asserts.bind (.assert _) fun _ => Asserts.bind (emaS' len _).fails fun _ => .pure _

theorem foldlM_good {A B : Type} {c : Ctx α} {f : B → A → Res B} : ∀ (l : List A) (b : B), (∀ b, ∀ a ∈ l, Good c (fun _ => True) (f b a)) →
    Good c (fun _ => True) (l.foldlM f b)
  | [], _, _ => trivial
  | a :: l, b, h => by
    rw [List.foldlM_cons]
    exact (h b a (by simp)).step fun b' => foldlM_good l b' fun b a ha => h b a (by simp [ha])

theorem indexed_lt {A : Type} {l : List A} {p : Nat × A} (h : p ∈ indexed l) : p.1 < l.length := by
  have := (List.of_mem_zip (show (p.1, p.2) ∈ (List.range l.length).zip l from h)).1
  simpa using this

def wmaS (len : Nat) : Sound (Wma.next (α := α)) (Wma.new len) where
  Inv b s := 1 ≤ s.length ∧ s.inputCache.length = s.length ∧ s.batchValidator.lastNoneIndex ≤ b
  mono h hb := ⟨h.1, h.2.1, h.2.2.trans hb⟩
  step c s v h := by
    obtain ⟨h1, h2, h3⟩ := h
    unfold Wma.next
    refine (validator_good h3 v).bind ?_
    rintro ⟨r, bv⟩ hr
    refine (Good.atLength h1).step' fun b => ?_
    split
    · exact ⟨h1, h2, hr⟩
    · refine (cache_all_good s.inputCache v (by omega)).bind fun l hl => ?_
      refine (foldlM_good _ _ ?_).step fun _ => ⟨h1, h2, hr⟩
      intro b a ha
      have := indexed_lt ha
      simp only [List.length_reverse] at this
      unfold Wma.step
      refine (Good.unwrap' _).step fun w => ?_
      rw [usub_of_le (show a.1 ≤ s.length by omega)]
      exact trivial
  init s h := by
    unfold Wma.new at h
    obtain ⟨_, h0, h⟩ := Res.bind_ok h
    obtain ⟨m, hm, h⟩ := Res.bind_ok h
    have := Except.ok.inj h; subst this
    obtain ⟨_, _, hm⟩ := Res.bind_ok hm
    have := Except.ok.inj hm; subst this
    exact ⟨by simpa using assert_ok h0, rfl, le_rfl⟩
  fails := by
    refine Asserts.bind (.assert _) fun _ => Asserts.bind ?_ fun _ => .pure _
    exact Asserts.bind (.assert _) fun _ => .pure _

def swmaS : Sound (Swma.next (α := α)) Swma.new where
  Inv b s := s.length = 4 ∧ s.inputCache.length = 4 ∧ s.batchValidator.lastNoneIndex ≤ b
  mono h hb := ⟨h.1, h.2.1, h.2.2.trans hb⟩
  step c s v h := by
    obtain ⟨h1, h2, h3⟩ := h
    unfold Swma.next
    refine (validator_good h3 v).bind ?_
    rintro ⟨r, bv⟩ hr
    refine (Good.atLength (show 1 ≤ s.length by omega)).step' fun b => ?_
    split
    · exact ⟨h1, h2, hr⟩
    · refine (cache_all_good s.inputCache v (by omega)).bind fun l hl => ?_
      refine (foldlM_good _ _ ?_).step fun _ => ⟨h1, h2, hr⟩
      intro b a ha
      have := indexed_lt ha
      unfold Swma.step
      refine (Good.unwrap' _).step fun w => ?_
      rw [index_of_lt (show a.1 < (Swma.weights : List α).length from by show a.1 < 4; omega)]
      exact trivial
  init s h := by
    unfold Swma.new at h
    obtain ⟨m, hm, h⟩ := Res.bind_ok h
    have := Except.ok.inj h; subst this
    obtain ⟨_, _, hm⟩ := Res.bind_ok hm
    have := Except.ok.inj hm; subst this
    exact ⟨rfl, rfl, le_rfl⟩
  fails := by
    refine Asserts.bind ?_ fun _ => .pure _
    exact Asserts.bind (.assert _) fun _ => .pure _

/-- The invariant of whichever average is inside. -/
def MaInv (b : Nat) : Ma α → Prop
  | .sma s => (smaS (α := α) 1).Inv b s
  | .ema s => (emaS (α := α) 1).Inv b s
  | .rma s => (rmaS (α := α) 1).Inv b s
  | .swma s => (swmaS (α := α)).Inv b s

def maS (kind : MaKind) (len : Nat) : Sound (Ma.next (α := α)) (Ma.new kind len) where
  Inv := MaInv
  mono {b b' s} h hb := by
    cases s with
    | sma s => exact (smaS 1).mono h hb
    | ema s => exact (emaS 1).mono h hb
    | rma s => exact (rmaS 1).mono h hb
    | swma s => exact swmaS.mono h hb
  step c s v h := by
    cases s with
    | sma s => exact ((smaS 1).step c s v h).bind fun r hr => hr
    | ema s => exact ((emaS 1).step c s v h).bind fun r hr => hr
    | rma s => exact ((rmaS 1).step c s v h).bind fun r hr => hr
    | swma s => exact (swmaS.step c s v h).bind fun r hr => hr
  init s h := by
    cases kind with
    | sma =>
      obtain ⟨a, ha, h⟩ := Res.bind_ok h
      have := Except.ok.inj h; subst this
      exact (smaS len).init a ha
    | ema =>
      obtain ⟨a, ha, h⟩ := Res.bind_ok h
      have := Except.ok.inj h; subst this
      exact (emaS len).init a ha
    | rma =>
      obtain ⟨a, ha, h⟩ := Res.bind_ok h
      have := Except.ok.inj h; subst this
      exact (rmaS len).init a ha
    | swma =>
      obtain ⟨a, ha, h⟩ := Res.bind_ok h
      have := Except.ok.inj h; subst this
      exact swmaS.init a ha
  fails := by
    cases kind with
    | sma => exact Asserts.bind (smaS len).fails fun _ => .pure _
    | ema => exact Asserts.bind (emaS len).fails fun _ => .pure _
    | rma => exact Asserts.bind (rmaS len).fails fun _ => .pure _
    | swma => exact Asserts.bind swmaS.fails fun _ => .pure _

def devS (len : Nat) : Sound (Dev.next (α := α)) (Dev.new len) where
  Inv b s := 1 ≤ s.inputCache.length ∧ (smaS (α := α) 1).Inv b s.sma
  mono h hb := ⟨h.1, (smaS 1).mono h.2 hb⟩
  step c s v h := by
    unfold Dev.next
    by_cases hl : s.length = 1
    · rw [if_pos hl]; exact h
    rw [if_neg hl]
    refine ((smaS 1).step c s.sma v h.2).bind ?_
    rintro ⟨o, m⟩ hm
    cases o with
    | none => exact ⟨h.1, hm⟩
    | some o =>
      simp only
      split
      · exact ⟨h.1, hm⟩
      · exact (cache_all_good s.inputCache v h.1).bind fun l hl => ⟨h.1, hm⟩
  init s h := by
    unfold Dev.new at h
    obtain ⟨_, h0, h⟩ := Res.bind_ok h
    obtain ⟨m, hm, h⟩ := Res.bind_ok h
    have := Except.ok.inj h; subst this
    exact ⟨by simpa [WindowCache.new] using assert_ok h0, (smaS len).init m hm⟩
  fails := Asserts.bind (.assert _) fun _ => Asserts.bind (smaS len).fails fun _ => .pure _

def stdevS (len : Nat) (biased : Bool) : Sound (Stdev.next (α := α)) (Stdev.new len biased) where
  Inv b s := 1 ≤ s.length ∧ 1 ≤ s.inputCache.length ∧ (smaS (α := α) 1).Inv b s.sma
  mono h hb := ⟨h.1, h.2.1, (smaS 1).mono h.2.2 hb⟩
  step c s v h := by
    unfold Stdev.next
    by_cases hl : s.length = 1
    · rw [if_pos hl]
      split <;> exact h
    rw [if_neg hl]
    refine ((smaS 1).step c s.sma v h.2.2).bind ?_
    rintro ⟨o, m⟩ hm
    cases o with
    | none => exact ⟨h.1, h.2.1, hm⟩
    | some o =>
      refine (cache_all_good s.inputCache v h.2.1).bind fun l hl => ?_
      simp only
      split
      · exact ⟨h.1, h.2.1, hm⟩
      · rw [usub_of_le h.1]
        exact ⟨h.1, h.2.1, hm⟩
  init s h := by
    unfold Stdev.new at h
    obtain ⟨_, h0, h⟩ := Res.bind_ok h
    obtain ⟨m, hm, h⟩ := Res.bind_ok h
    have := Except.ok.inj h; subst this
    exact ⟨by simpa using assert_ok h0, by simpa [WindowCache.new] using assert_ok h0, (smaS len).init m hm⟩
  fails := Asserts.bind (.assert _) fun _ => Asserts.bind (smaS len).fails fun _ => .pure _

def changeS (len : Nat) : Sound (α := α) (anyCtx Change.next) (Change.new (α := α) len) where
  Inv _ s := 1 ≤ s.inputCache.length
  mono h _ := h
  step c s v h := by
    unfold anyCtx Change.next
    have hc : 1 ≤ (s.inputCache.next v).length := h
    refine (cache_first_good hc).step fun f => ?_
    simp only
    split
    · exact h
    · refine (Good.unwrap' _).step fun w => ?_
      split
      · exact h
      · exact (Good.unwrap' _).step fun w => h
  init s h := by
    unfold Change.new at h
    obtain ⟨_, h0, h⟩ := Res.bind_ok h
    have := Except.ok.inj h; subst this
    exact Nat.le_add_left 1 len
  fails := Asserts.bind (.assert _) fun _ => .pure _

def rocS (len : Nat) : Sound (α := α) (anyCtx Roc.next) (Roc.new (α := α) len) where
  Inv _ s := 1 ≤ s.inputCache.length
  mono h _ := h
  step c s v h := by
    unfold anyCtx Roc.next
    have hc : 1 ≤ (s.inputCache.next v).length := h
    refine (cache_first_good hc).step fun f => ?_
    simp only
    split
    · exact h
    · refine (Good.unwrap' _).step fun w => ?_
      split
      · exact h
      · exact (Good.unwrap' _).step fun w => h
  init s h := by
    unfold Roc.new at h
    obtain ⟨_, h0, h⟩ := Res.bind_ok h
    have := Except.ok.inj h; subst this
    exact Nat.le_add_left 1 len
  fails := Asserts.bind (.assert _) fun _ => .pure _

def prankS (len : Nat) : Sound (Prank.next (α := α)) (Prank.new len) where
  Inv _ s := 1 ≤ s.inputCache.length
  mono h _ := h
  step c s v h := by
    unfold Prank.next
    refine (Good.atLength (Nat.le_add_left 1 s.length)).step' fun b => ?_
    simp only
    split
    · exact h
    · refine (Good.unwrap' _).step fun w => ?_
      refine (cache_all_good s.inputCache v h).bind fun l hl => ?_
      have h1 : 1 ≤ l.length := List.length_pos_iff.mpr hl.1
      rw [usub_of_le h1]
      simp only [Res.ok_bind]
      unfold slice
      rw [if_pos (by omega)]
      exact h
  init s h := by
    unfold Prank.new at h
    obtain ⟨_, h0, h⟩ := Res.bind_ok h
    have := Except.ok.inj h; subst this
    exact Nat.le_add_left 1 len
  fails := Asserts.bind (.assert _) fun _ => .pure _

def highestS (len : Nat) : Sound (Highest.next (α := α)) (Highest.new len) where
  Inv _ s := 1 ≤ s.length ∧ 1 ≤ s.inputCache.length
  mono h _ := h
  step c s v h := by
    unfold Highest.next
    refine (Good.atLength h.1).step' fun b => ?_
    split
    · exact h
    · refine (cache_all_good s.inputCache v h.2).bind fun l hl => ?_
      rw [highest_ok hl.1]
      exact h
  init s h := by
    unfold Highest.new at h
    obtain ⟨_, h0, h⟩ := Res.bind_ok h
    have := Except.ok.inj h; subst this
    exact ⟨by simpa using assert_ok h0, by simpa [WindowCache.new] using assert_ok h0⟩
  fails := Asserts.bind (.assert _) fun _ => .pure _

def lowestS (len : Nat) : Sound (Lowest.next (α := α)) (Lowest.new len) where
  Inv _ s := 1 ≤ s.length ∧ 1 ≤ s.inputCache.length
  mono h _ := h
  step c s v h := by
    unfold Lowest.next
    refine (Good.atLength h.1).step' fun b => ?_
    split
    · exact h
    · refine (cache_all_good s.inputCache v h.2).bind fun l hl => ?_
      rw [lowest_ok hl.1]
      exact h
  init s h := by
    unfold Lowest.new at h
    obtain ⟨_, h0, h⟩ := Res.bind_ok h
    have := Except.ok.inj h; subst this
    exact ⟨by simpa using assert_ok h0, by simpa [WindowCache.new] using assert_ok h0⟩
  fails := Asserts.bind (.assert _) fun _ => .pure _

def highestBarsS (len : Nat) : Sound (α := α) (barsOnly HighestBars.next) (HighestBars.new len) where
  Inv _ s := 1 ≤ s.length
  mono h _ := h
  step c s v h := by
    unfold barsOnly HighestBars.next
    refine (Good.atLength h).bind fun b hb => ?_
    cases b with
    | false => exact h
    | true =>
      simp only [Bool.not_true, Bool.false_eq_true, if_false]
      refine (Good.highs h (by simpa using hb.symm)).bind fun l hl => ?_
      unfold highestBars
      rw [findMaxIndex_eq]
      obtain ⟨i, hi, _⟩ := findBest_ok (fun v m : α => F64.lt m v) hl
      rw [hi]
      exact h
  init s h := by
    unfold HighestBars.new at h
    obtain ⟨_, h0, h⟩ := Res.bind_ok h
    have := Except.ok.inj h; subst this
    simpa using assert_ok h0
  fails := Asserts.bind (.assert _) fun _ => .pure _

def lowestBarsS (len : Nat) : Sound (α := α) (barsOnly LowestBars.next) (LowestBars.new len) where
  Inv _ s := 1 ≤ s.length
  mono h _ := h
  step c s v h := by
    unfold barsOnly LowestBars.next
    refine (Good.atLength h).bind fun b hb => ?_
    cases b with
    | false => exact h
    | true =>
      simp only [Bool.not_true, Bool.false_eq_true, if_false]
      refine (Good.lows h (by simpa using hb.symm)).bind fun l hl => ?_
      unfold lowestBars
      rw [findMinIndex_eq]
      obtain ⟨i, hi, _⟩ := findBest_ok (fun v m : α => F64.lt v m) hl
      rw [hi]
      exact h
  init s h := by
    unfold LowestBars.new at h
    obtain ⟨_, h0, h⟩ := Res.bind_ok h
    have := Except.ok.inj h; subst this
    simpa using assert_ok h0
  fails := Asserts.bind (.assert _) fun _ => .pure _

def stochS (len : Nat) : Sound (Stoch.next (α := α)) (Stoch.new len) where
  Inv _ s := 1 ≤ s.length ∧ 1 ≤ s.highInputCache.length ∧ 1 ≤ s.lowInputCache.length
  mono h _ := h
  step c s v h := by
    unfold Stoch.next
    refine (Good.atLength h.1).step' fun b => ?_
    simp only
    split
    · exact h
    · refine (cache_all_good s.highInputCache v.2.1 h.2.1).bind fun l hl => ?_
      refine (cache_all_good s.lowInputCache v.2.2 h.2.2).bind fun l' hl' => ?_
      refine Good.step ?_ fun o => h
      unfold stoch
      cases v.1 with
      | none => exact trivial
      | some w =>
        simp only
        rw [highest_ok hl.1, lowest_ok hl'.1]
        simp only [Res.ok_bind]
        split
        · split <;> exact trivial
        · exact trivial
  init s h := by
    unfold Stoch.new at h
    obtain ⟨_, h0, h⟩ := Res.bind_ok h
    have := Except.ok.inj h; subst this
    have : 1 ≤ len := by simpa using assert_ok h0
    exact ⟨this, this, this⟩
  fails := Asserts.bind (.assert _) fun _ => .pure _

theorem tr_good (c : Ctx α) (na : Bool) : Good c (fun _ => True) (Tr.next c na) := by
  unfold Tr.next
  exact Good.barHigh.step fun _ => (Good.unwrap' _).step fun _ => Good.barLow.step fun _ => (Good.unwrap' _).step fun _ =>
    (Good.high 1).step fun _ => (Good.low 1).step fun _ => (Good.close 1).step fun _ => trivial

def atrS (len : Nat) : Sound (barsOnly (Atr.next (α := α))) (Atr.new len) where
  Inv b s := (rmaS (α := α) 1).Inv b s.rma
  mono h hb := (rmaS 1).mono h hb
  step c s v h := by
    unfold barsOnly Atr.next
    exact (tr_good c true).step fun t => ((rmaS 1).step c s.rma t h).bind fun r hr => hr
  init s h := by
    unfold Atr.new at h
    obtain ⟨_, h0, h⟩ := Res.bind_ok h
    obtain ⟨m, hm, h⟩ := Res.bind_ok h
    have := Except.ok.inj h; subst this
    exact (rmaS len).init m hm
  fails := Asserts.bind (.assert _) fun _ => Asserts.bind (rmaS len).fails fun _ => .pure _

def rsiS (len : Nat) : Sound (Rsi.next (α := α)) (Rsi.new len) where
  Inv b s := (rmaS (α := α) 1).Inv b s.upRma ∧ (rmaS (α := α) 1).Inv b s.downRma
  mono h hb := ⟨(rmaS 1).mono h.1 hb, (rmaS 1).mono h.2 hb⟩
  step c s v h := by
    unfold Rsi.next
    refine ((rmaS 1).step c s.upRma _ h.1).bind ?_
    rintro ⟨o, m⟩ hm
    refine ((rmaS 1).step c s.downRma _ h.2).bind ?_
    rintro ⟨o', m'⟩ hm'
    cases o <;> cases o' <;> exact ⟨hm, hm'⟩
  init s h := by
    unfold Rsi.new at h
    obtain ⟨_, h0, h⟩ := Res.bind_ok h
    obtain ⟨m, hm, h⟩ := Res.bind_ok h
    obtain ⟨m', hm', h⟩ := Res.bind_ok h
    have := Except.ok.inj h; subst this
    exact ⟨(rmaS len).init m hm, (rmaS len).init m' hm'⟩
  fails := Asserts.bind (.assert _) fun _ => Asserts.bind (rmaS len).fails fun _ => Asserts.bind (rmaS len).fails fun _ => .pure _

end
end Pace
