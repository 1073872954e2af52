import Verif.Lemmas.Cache

/-!
# Properties of common and pinescript (C05–C12)
-/

namespace Pace

/-! ## C05 -/

/-- `o` is the most recent present value among `x 0 .. x t`; `none` only if there is none at all. -/
def Spec.IsLatest {α : Type} (x : Nat → Option α) (t : Nat) (o : Option α) : Prop :=
  (o = none ∧ ∀ k, k ≤ t → x k = none) ∨
  (∃ k v, k ≤ t ∧ x k = some v ∧ o = some v ∧ ∀ j, k < j → j ≤ t → x j = none)

/-- **C05.** For every input series, the output of `FixNan` at each tick is the most recent non-`None` input, and `None`
only if there was none yet. -/
theorem C05_fixnan {α : Type} (x : Nat → Option α) (N : Nat) :
    ∃ y, Runs (total FixNan.next) (.ok FixNan.new) x N y ∧ ∀ t, t < N → Spec.IsLatest x t (y t) := by
  let y : Nat → Option α := fun t => Nat.rec (x 0) (fun t p => (x (t + 1)).or p) t
  have hy : ∀ t, Spec.IsLatest x t (y t) := by
    intro t
    induction t with
    | zero =>
      cases h : x 0 with
      | none => left; exact ⟨h, fun k hk => by rw [Nat.le_zero.mp hk]; exact h⟩
      | some v => right; exact ⟨0, v, le_refl _, h, h, fun j h1 h2 => by omega⟩
    | succ t ih =>
      have hs : y (t + 1) = (x (t + 1)).or (y t) := rfl
      cases h : x (t + 1) with
      | some v =>
        right; exact ⟨t + 1, v, le_refl _, h, by rw [hs, h]; rfl, fun j h1 h2 => by omega⟩
      | none =>
        rw [hs, h, Option.none_or]
        rcases ih with ⟨h1, h2⟩ | ⟨k, v, h1, h2, h3, h4⟩
        · left; refine ⟨h1, fun k hk => ?_⟩
          rcases Nat.lt_or_ge k (t + 1) with hk' | hk'
          · exact h2 k (by omega)
          · rw [show k = t + 1 by omega]; exact h
        · right; refine ⟨k, v, by omega, h2, h3, fun j hj1 hj2 => ?_⟩
          rcases Nat.lt_or_ge j (t + 1) with hk' | hk'
          · exact h4 j hj1 (by omega)
          · rw [show j = t + 1 by omega]; exact h
  refine ⟨y, ?_, fun t _ => hy t⟩
  apply Impl.runs (Inv := fun t (s : FixNan α) =>
    s.lastNonNan = if t = 0 then none else y (t - 1))
  constructor
  · rfl
  · intro t s _ hI
    have hyt : y t = (x t).or s.lastNonNan := by
      rw [hI]; cases t with
      | zero => simp; rfl
      | succ t => simp; rfl
    refine ⟨⟨y t⟩, ?_, by simp⟩
    unfold total FixNan.next
    cases hx : x t with
    | none => rw [hx, Option.none_or] at hyt; simp only [hyt]
    | some v => rw [hx, Option.some_or] at hyt; simp only [hyt]

/-- The result determines the value: two "latest" values agree. -/
theorem C05_latest_unique {α : Type} (x : Nat → Option α) (t : Nat) (o o' : Option α)
    (h : Spec.IsLatest x t o) (h' : Spec.IsLatest x t o') : o = o' := by
  rcases h with ⟨h1, h2⟩ | ⟨k, v, h1, h2, h3, h4⟩ <;> rcases h' with ⟨h1', h2'⟩ | ⟨k', v', h1', h2', h3', h4'⟩
  · rw [h1, h1']
  · rw [h2 k' h1'] at h2'; simp at h2'
  · rw [h2' k h1] at h2; simp at h2
  · rcases Nat.lt_trichotomy k k' with hk | hk | hk
    · rw [h4 k' hk h1'] at h2'; simp at h2'
    · subst hk; rw [h2] at h2'; rw [h3, h3', h2']
    · rw [h4' k hk h1] at h2; simp at h2

/-! ## C06, C07 -/

/-- The cache after pushing `vs` (oldest first) into an empty cache of length `N`. -/
def Spec.cacheAfter {β : Type} (N : Nat) (vs : List β) : WindowCache β :=
  vs.foldl WindowCache.next (WindowCache.new N)

/-- **C06.** After any pushes `vs`: `all` is the last `min(N, pushes)` values oldest first. -/
theorem C06_all {β : Type} (N : Nat) (vs : List β) :
    ∃ pre l, vs = pre ++ l ∧ l.length = min N vs.length ∧ (Spec.cacheAfter N vs).all = .ok l := by
  refine ⟨vs.take (vs.length - N), vs.drop (vs.length - N), by simp, by simp; omega, ?_⟩
  rw [Spec.cacheAfter, foldl_cache, cache_all]

/-- **C06.** `last` is the latest push. -/
theorem C06_last {β : Type} (N : Nat) (vs : List β) : (Spec.cacheAfter N vs).last = vs.getLast? := by
  rw [Spec.cacheAfter, foldl_cache]; rfl

/-- **C06.** `first` is the value `N-1` pushes before the latest if at least `N` values were pushed, else `None`; it
panics (in every state) for `N = 0`. -/
theorem C06_first {β : Type} (N : Nat) (vs : List β) :
    (1 ≤ N → (Spec.cacheAfter N vs).first =
      .ok (if N ≤ vs.length then vs.reverse[N - 1]? else none)) ∧
    (N = 0 → ∃ e, (Spec.cacheAfter N vs).first = .error e) := by
  rw [Spec.cacheAfter, foldl_cache]
  constructor
  · intro hN
    rw [cache_first hN]
    congr 1
    split
    · rw [List.getElem?_reverse (by omega)]; congr 1; omega
    · rfl
  · rintro rfl; exact ⟨.underflow, by simp [WindowCache.first, usub]⟩

/-- **C06.** `is_filled` iff at least `N` values were pushed. -/
theorem C06_is_filled {β : Type} (N : Nat) (vs : List β) :
    (Spec.cacheAfter N vs).isFilled = true ↔ N ≤ vs.length := by
  rw [Spec.cacheAfter, foldl_cache]; simp [WindowCache.isFilled]

/-- **C06 / C07, exact behaviour.** `get i` is the value `i` pushes before the latest, *whatever the window length*,
and panics exactly if there were not that many pushes. -/
theorem C06_get {β : Type} (N i : Nat) (vs : List β) :
    (Spec.cacheAfter N vs).get i =
      if i < vs.length then .ok (vs.reverse[i]?) else .error .underflow := by
  rw [Spec.cacheAfter, foldl_cache, cache_get]

/-- **C06.** The flattened accessors of a cache of optional values. -/
theorem C06_unwrapped {α : Type} (N : Nat) (vs : List (Option α)) :
    (Spec.cacheAfter N vs).lastUnwrapped = vs.getLast?.join ∧
    (1 ≤ N → (Spec.cacheAfter N vs).firstUnwrapped =
      .ok (if N ≤ vs.length then (vs.reverse[N - 1]?).join else none)) ∧
    (∀ i, i < vs.length → (Spec.cacheAfter N vs).getUnwrapped i = .ok (vs.reverse[i]?).join) := by
  have hj : ∀ o : Option (Option α), WindowCache.normalizeValue o = o.join := by
    intro o; cases o <;> rfl
  refine ⟨?_, ?_, ?_⟩
  · rw [WindowCache.lastUnwrapped, C06_last, hj]
  · intro hN
    rw [WindowCache.firstUnwrapped, (C06_first N vs).1 hN]
    simp only [Res.ok_bind, Res.pure_eq, hj]
    split <;> rfl
  · intro i hi
    rw [WindowCache.getUnwrapped, C06_get, if_pos hi]
    simp [hj]

/-- **C07, exact behaviour.** `size` is the number of all pushes. -/
theorem C07_size {β : Type} (N : Nat) (vs : List β) : (Spec.cacheAfter N vs).size = vs.length := by
  rw [Spec.cacheAfter, foldl_cache]; rfl

/-- **C07.** the size is not bounded by the window length ... -/
theorem C07_size_unbounded : ∀ N, ∃ vs : List Nat, N < (Spec.cacheAfter N vs).size :=
  fun N => ⟨List.replicate (N + 1) 0, by rw [C07_size]; simp⟩

/-- **C07.** `get i` succeeds exactly if there were more than `i` pushes, and then returns the value `i` pushes ago, wherever
the window ends. -/
theorem C07_get {β : Type} (N i : Nat) (vs : List β) :
    (∀ o, (Spec.cacheAfter N vs).get i = .ok o ↔ i < vs.length ∧ o = vs.reverse[i]?) ∧
    (∀ e, (Spec.cacheAfter N vs).get i = .error e → vs.length ≤ i) := by
  rw [C06_get]
  constructor
  · intro o
    by_cases h : i < vs.length
    · rw [if_pos h, Except.ok.injEq, and_iff_right h, eq_comm]
    · rw [if_neg h]; simp [h]
  · intro e he
    by_contra hc
    rw [if_pos (by omega)] at he
    exact absurd he (by simp)

/-- A window of 1, reading one push back. -/
example : (1 : Nat) ≤ 1 ∧ (Spec.cacheAfter 1 [7, 8]).get 1 = .ok (some 7) := ⟨le_refl _, rfl⟩

/-! ## C08 -/

/-- **C08.** `IncrementalCache` is the full history: `all`, `size`, ends, and `get i` counted from the latest;
`first`, `last` and `get` panic exactly if there is no such element. -/
theorem C08_incremental_cache {β : Type} (vs : List β) :
    let s := vs.foldl IncrementalCache.next IncrementalCache.new
    s.all = vs ∧ s.size = vs.length ∧
    (∀ b, s.last = .ok b ↔ vs.getLast? = some b) ∧ (∀ b, s.first = .ok b ↔ vs.head? = some b) ∧
    (∀ i b, s.get i = .ok b ↔ vs.reverse[i]? = some b) ∧
    (vs = [] → (∃ e, s.last = .error e) ∧ (∃ e, s.first = .error e)) ∧
    (∀ i, vs.length ≤ i → ∃ e, s.get i = .error e) := by
  intro s
  have hs : s = ⟨vs⟩ := foldl_icache vs
  rw [hs]
  have hget : ∀ i, (⟨vs⟩ : IncrementalCache β).get i =
      match vs.reverse[i]? with
      | some b => .ok b
      | none => .error .underflow := by
    intro i
    unfold IncrementalCache.get
    by_cases h0 : 1 ≤ vs.length
    · by_cases h : i < vs.length
      · simp only [usub_of_le h0, Res.ok_bind, usub_of_le (show i ≤ vs.length - 1 by omega),
          List.getElem?_reverse h]
        rw [List.getElem?_eq_getElem (by omega)]; rfl
      · simp only [usub_of_le h0, Res.ok_bind, usub_of_lt (show vs.length - 1 < i by omega)]
        rw [List.getElem?_eq_none (by simp; omega)]; rfl
    · simp only [usub_of_lt (Nat.lt_of_not_le h0)]
      rw [List.getElem?_eq_none (by simp; omega)]; rfl
  have hu : ∀ (o : Option β) b, unwrap o = .ok b ↔ o = some b := by
    intro o b; cases o <;> simp
  refine ⟨rfl, rfl, fun b => hu _ _, fun b => hu _ _, ?_, ?_, ?_⟩
  · intro i b; rw [hget]; cases vs.reverse[i]? <;> simp
  · rintro rfl; exact ⟨⟨.unwrapNone, rfl⟩, ⟨.unwrapNone, rfl⟩⟩
  · intro i hi; refine ⟨.underflow, ?_⟩
    rw [hget, List.getElem?_eq_none (by simpa using hi)]

example : (⟨[3, 4, 5]⟩ : IncrementalCache Nat).get 1 = .ok 4 := rfl

/-! ## C09 -/

/-- **C09.** Fed once per tick from tick 0, on any data, the validator never panics and is true at tick `t` exactly if
every input of the last `length` ticks (all ticks, if fewer have passed) is present. -/
theorem C09_window_validator {α : Type} (d : DataProvider α) (len : Nat) (hlen : 1 ≤ len)
    (x : Nat → Option α) (N : Nat) :
    Runs (fun t => WindowValidator.next ⟨d, t⟩) (WindowValidator.new len) x N
      (fun t => decide (∀ k, k ≤ t → t < k + len → (x k).isSome)) := by
  obtain ⟨s, hs, hI⟩ := validator_init x hlen
  rw [hs]
  refine Runs.congr (Impl.runs (Inv := ValidatorInv x len) (y := fun t => decide (WindowPresent x len t))
    ⟨hI, fun t s _ h => validator_step hlen h⟩) ?_
  intro t _
  apply decide_eq_decide.mpr
  rfl

/-- The constructor panics exactly on length 0. -/
theorem C09_new (len : Nat) : (∃ e, WindowValidator.new len = .error e) ↔ len = 0 := by
  unfold WindowValidator.new
  by_cases h : 1 ≤ len
  · simp [h]; omega
  · simp [h]; omega

/-- It can be true before `length` inputs were seen: the doc comment ("window is filled") does not hold. -/
theorem C09_true_before_filled {α : Type} (d : DataProvider α) (v : α) :
    Runs (fun t => WindowValidator.next ⟨d, t⟩) (WindowValidator.new 5) (fun _ => some v) 1
      (fun _ => true) := by
  refine (C09_window_validator d 5 (by omega) (fun _ => some v) 1).congr ?_
  intro t _; simp

/-! ## C10 -/

/-- **C10.** The n-th call of `Position` returns n-1. -/
theorem C10_position (N : Nat) :
    Runs (total fun s (_ : Unit) => Position.next s) (.ok Position.new) unit N (fun t => t) := by
  apply Impl.runs (Inv := fun t (s : Position) => s.index = t)
  constructor
  · rfl
  · intro t s _ h; exact ⟨⟨t + 1⟩, by simp [total, Position.next, h], rfl⟩

/-! ## C11 -/

section src
variable {α : Type} [F64 α]

/-- **C11.** The plain sources return the column's value of the current bar, present or not (any tick inside the data). -/
theorem C11_plain (c : Ctx α) (b : Option α) :
    (Src.next c .open_ = .ok b ↔ c.data.open_[c.index]? = some b) ∧
    (Src.next c .high = .ok b ↔ c.data.high[c.index]? = some b) ∧
    (Src.next c .low = .ok b ↔ c.data.low[c.index]? = some b) ∧
    (Src.next c .close = .ok b ↔ c.data.close[c.index]? = some b) ∧
    (Src.next c .volume = .ok b ↔ c.data.volume[c.index]? = some b) := by
  have : ∀ v : List (Option α), index v c.index = .ok b ↔ v[c.index]? = some b := by
    intro v; unfold index; cases v[c.index]? <;> simp
  exact ⟨this _, this _, this _, this _, this _⟩

private theorem bind_unwrap_index {γ : Type} (v : List (Option α)) (i : Nat) (f : α → Res γ) (r : γ) :
    (do let o ← index v i; let a ← unwrap o; f a) = .ok r ↔ ∃ a, v[i]? = some (some a) ∧ f a = .ok r := by
  unfold index
  cases v[i]? with
  | none => simp
  | some o => cases o <;> simp

/-- **C11.** The combined sources return the stated combination of the current bar's prices, and panic if one of the
prices involved is missing. -/
theorem C11_combined (c : Ctx α) (b : Option α) :
    (Src.next c .ohlc4 = .ok b ↔ ∃ o h l cl, c.data.open_[c.index]? = some (some o) ∧
      c.data.high[c.index]? = some (some h) ∧ c.data.low[c.index]? = some (some l) ∧
      c.data.close[c.index]? = some (some cl) ∧ b = some ((o + h + l + cl) / lit 4)) ∧
    (Src.next c .hlc3 = .ok b ↔ ∃ h l cl,
      c.data.high[c.index]? = some (some h) ∧ c.data.low[c.index]? = some (some l) ∧
      c.data.close[c.index]? = some (some cl) ∧ b = some ((h + l + cl) / lit 3)) ∧
    (Src.next c .hl2 = .ok b ↔ ∃ h l,
      c.data.high[c.index]? = some (some h) ∧ c.data.low[c.index]? = some (some l) ∧
      b = some ((h + l) / lit 2)) := by
  refine ⟨?_, ?_, ?_⟩ <;>
  simp only [Src.next, Ctx.barOpen, Ctx.barHigh, Ctx.barLow, Ctx.barClose, DataProvider.getOpen,
    DataProvider.getHigh, DataProvider.getLow, DataProvider.getClose, bind_unwrap_index,
    Res.pure_eq, Except.ok.injEq, Pace.ohlc4, Pace.hlc3, Pace.hl2]
  · constructor
    · rintro ⟨o, h1, h, h2, l, h3, cl, h4, rfl⟩; exact ⟨o, h, l, cl, h1, h2, h3, h4, rfl⟩
    · rintro ⟨o, h, l, cl, h1, h2, h3, h4, rfl⟩; exact ⟨o, h1, h, h2, l, h3, cl, h4, rfl⟩
  · constructor
    · rintro ⟨h, h2, l, h3, cl, h4, rfl⟩; exact ⟨h, l, cl, h2, h3, h4, rfl⟩
    · rintro ⟨h, l, cl, h2, h3, h4, rfl⟩; exact ⟨h, h2, l, h3, cl, h4, rfl⟩
  · constructor
    · rintro ⟨h, h2, l, h3, rfl⟩; exact ⟨h, l, h2, h3, rfl⟩
    · rintro ⟨h, l, h2, h3, rfl⟩; exact ⟨h, h2, l, h3, rfl⟩

end src

section exact
variable {K : Type} [Field K] [LinearOrder K] [IsStrictOrderedRing K] [RootOps K]

/-- **C11**, exact arithmetic: the combined sources are the arithmetic means of the prices, hence lie between the
smallest and the largest of them. -/
theorem C11_mean (o h l cl : K) :
    ohlc4 (fin o : Ex K) (fin h) (fin l) (fin cl) = fin ((o + h + l + cl) / 4) ∧
    hlc3 (fin h : Ex K) (fin l) (fin cl) = fin ((h + l + cl) / 3) ∧
    hl2 (fin h : Ex K) (fin l) = fin ((h + l) / 2) ∧
    (∀ lo hi, lo ≤ o → lo ≤ h → lo ≤ l → lo ≤ cl → o ≤ hi → h ≤ hi → l ≤ hi → cl ≤ hi →
      (lo ≤ (o + h + l + cl) / 4 ∧ (o + h + l + cl) / 4 ≤ hi) ∧
      (lo ≤ (h + l + cl) / 3 ∧ (h + l + cl) / 3 ≤ hi) ∧ (lo ≤ (h + l) / 2 ∧ (h + l) / 2 ≤ hi)) := by
  refine ⟨?_, ?_, ?_, ?_⟩
  · simp [ohlc4, fin_div _ _ (show (4 : K) ≠ 0 by norm_num)]
  · simp [hlc3, fin_div _ _ (show (3 : K) ≠ 0 by norm_num)]
  · simp [hl2, fin_div _ _ (show (2 : K) ≠ 0 by norm_num)]
  · intro lo hi h1 h2 h3 h4 h5 h6 h7 h8
    refine ⟨⟨?_, ?_⟩, ⟨?_, ?_⟩, ⟨?_, ?_⟩⟩ <;> linarith
end exact

/-! ## C12 -/

section ps
variable {α : Type} [F64 α]

/-- **C12.** The binary operations are missing exactly if an operand is missing (for the division: or the divisor
compares equal to 0), and otherwise apply the float operation. -/
theorem C12_ps (a b : Option α) (r : α) :
    (psAdd a b = some r ↔ ∃ u v, a = some u ∧ b = some v ∧ r = u + v) ∧
    (psDiff a b = some r ↔ ∃ u v, a = some u ∧ b = some v ∧ r = u - v) ∧
    (psDiv a b = some r ↔ ∃ u v, a = some u ∧ b = some v ∧ F64.feq v (lit 0) = false ∧ r = u / v) ∧
    (psMax a b = some r ↔ ∃ u v, a = some u ∧ b = some v ∧ r = F64.fmax u v) ∧
    (psMin a b = some r ↔ ∃ u v, a = some u ∧ b = some v ∧ r = F64.fmin u v) ∧
    (psAbs a = some r ↔ ∃ u, a = some u ∧ r = F64.abs u) ∧
    (psNz a = r ↔ a = some r ∨ (a = none ∧ r = lit 0)) := by
  have e : ∀ p q : α, (p = q) = (q = p) := fun p q => propext eq_comm
  refine ⟨?_, ?_, ?_, ?_, ?_, ?_, ?_⟩
  · cases a <;> cases b <;> simp [psAdd, e r]
  · cases a <;> cases b <;> simp [psDiff, e r]
  · cases a <;> cases b <;> simp [psDiv, e r]
  · cases a <;> cases b <;> simp [psMax, e r]
  · cases a <;> cases b <;> simp [psMin, e r]
  · cases a <;> simp [psAbs, e r]
  · cases a <;> simp [psNz, e r]
end ps

section psExact
variable {K : Type} [Field K] [LinearOrder K] [RootOps K]

/-- **C12**, exact arithmetic: on finite operands `ps_div` is the quotient, always a finite number, and `None` exactly on
a zero divisor. -/
theorem C12_div_finite (a b : K) :
    psDiv (some (fin a : Ex K)) (some (fin b)) = if b = 0 then none else some (fin (a / b)) := by
  unfold psDiv
  by_cases h : b = 0
  · simp [h]
  · simp [h, fin_div a b h]
end psExact

section psRound
variable {K : Type} [Field K] [LinearOrder K]

/-- **C12** with any rounding that maps 0 to 0: if `ps_div` of finite operands returns a value, the divisor was not zero
and the value is the rounded quotient; so with a rounding that never yields NaN it is never NaN. -/
theorem C12_div_rounded (R : Rounding K) (h0 : R.rnd 0 = .fin 0) (a b : K) (r : Fl R)
    (h : psDiv (some (Fl.of R (.fin a))) (some (Fl.of R (.fin b))) = some r) :
    b ≠ 0 ∧ r = R.rnd (a / b) := by
  have hlit : (lit 0 : Fl R) = Fl.of R (.fin 0) := by
    show R.rnd ((0 : ℚ) : K) = Ext.fin 0; simpa using h0
  have hfeq : F64.feq (Fl.of R (.fin b)) (Fl.of R (.fin 0)) = decide (b = 0) := by
    show decide (Ext.fin b = Ext.fin 0) = _; simp
  unfold psDiv at h
  rw [hlit] at h
  simp only [hfeq] at h
  by_cases hb : b = 0
  · simp [hb] at h
  · simp only [hb, decide_false, Bool.false_eq_true, if_false, Option.some.injEq] at h
    refine ⟨hb, ?_⟩
    rw [← h]
    exact (if_neg hb : (if b = 0 then Fl.signInf a else R.rnd (a / b)) = R.rnd (a / b))
end psRound

end Pace
