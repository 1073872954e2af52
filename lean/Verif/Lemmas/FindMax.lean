import Verif.Lemmas.Series
import Verif.Model.Statistics

/-! # The loops of find_max_index and find_min_index -/

set_option linter.unusedSectionVars false

namespace Pace

/-- The common shape of the two loops, with `better v m` the test for replacing the current extreme `m` by `v`. -/
def findStep {α : Type} (better : α → α → Bool) (acc : Option α × Option Nat) (iv : Nat × Option α) :
    Option α × Option Nat :=
  match acc.1, iv.2 with
  | none, some v => (some v, some iv.1)
  | some m, some v => if better v m then (some v, some iv.1) else acc
  | _, _ => acc

theorem findMaxStep_eq {α : Type} [F64 α] : findMaxStep (α := α) = findStep (fun v m => F64.lt m v) := by
  funext acc iv; unfold findMaxStep findStep fgt; rfl
theorem findMinStep_eq {α : Type} [F64 α] : findMinStep (α := α) = findStep (fun v m => F64.lt v m) := by
  funext acc iv; unfold findMinStep findStep; rfl

/-- State of the loop after visiting a prefix `pre`: nothing found, or the position of the extreme found. -/
structure FindInv {α : Type} (better : α → α → Bool) (pre : List (Option α))
    (acc : Option α × Option Nat) : Prop where
  none : acc.1 = none → acc.2 = none ∧ ∀ o ∈ pre, o = Option.none
  some : ∀ m, acc.1 = some m → ∃ i, acc.2 = some i ∧ pre[i]? = some (some m)

/-- The found value is at least as good as all, and strictly better than all earlier ones. -/
def FindBest {α : Type} (better : α → α → Bool) (pre : List (Option α))
    (acc : Option α × Option Nat) : Prop :=
  ∀ m i, acc.1 = some m → acc.2 = some i → ∀ (j : Nat) (v : α), pre[j]? = some (some v) →
    better v m = false ∧ (j < i → better m v = true)

theorem zip_range_append {β : Type} (pre l : List β) :
    indexed (pre ++ l) = indexed pre ++ (List.range' pre.length l.length).zip l := by
  unfold indexed
  rw [List.length_append, List.range_eq_range', List.range_eq_range', ← List.range'_append (step := 1),
    List.zip_append (by simp)]
  simp

theorem find_fold {α : Type} (better : α → α → Bool) (P : (Option α × Option Nat) → List (Option α) → Prop)
    (hstep : ∀ pre acc o, P acc pre → P (findStep better acc (pre.length, o)) (pre ++ [o])) :
    ∀ (l pre : List (Option α)) acc, P acc pre →
      P (((List.range' pre.length l.length).zip l).foldl (findStep better) acc) (pre ++ l) := by
  intro l
  induction l with
  | nil => intro pre acc h; simpa using h
  | cons o l ih =>
    intro pre acc h
    have := ih (pre ++ [o]) _ (hstep pre acc o h)
    simpa [List.range'_succ] using this

theorem findInv_step {α : Type} (better : α → α → Bool) (pre : List (Option α)) (acc) (o : Option α)
    (h : FindInv better pre acc) : FindInv better (pre ++ [o]) (findStep better acc (pre.length, o)) := by
  obtain ⟨a, b⟩ := acc
  obtain ⟨h1, h2⟩ := h
  have keep : ∀ (m : α) (i : Nat), pre[i]? = some (some m) → (pre ++ [o])[i]? = some (some m) := by
    intro m i hi
    have := (List.getElem?_eq_some_iff.mp hi).1
    rw [List.getElem?_append_left this]; exact hi
  cases a with
  | none =>
    cases o with
    | none =>
      refine ⟨fun _ => ⟨(h1 rfl).1, ?_⟩, by simp [findStep]⟩
      intro x hx
      rcases List.mem_append.mp hx with hx | hx
      · exact (h1 rfl).2 x hx
      · exact List.mem_singleton.mp hx
    | some v =>
      refine ⟨by simp [findStep], ?_⟩
      intro m hm
      simp only [findStep, Option.some.injEq] at hm
      subst hm
      exact ⟨pre.length, rfl, by simp⟩
  | some m0 =>
    obtain ⟨i0, hi0, hp0⟩ := h2 m0 rfl
    cases o with
    | none =>
      refine ⟨by simp [findStep], ?_⟩
      intro m hm
      simp only [findStep, Option.some.injEq] at hm
      subst hm
      exact ⟨i0, hi0, keep _ _ hp0⟩
    | some v =>
      by_cases hb : better v m0 = true
      · simp only [findStep, hb, if_true]
        refine ⟨by simp, ?_⟩
        intro m hm
        simp only [Option.some.injEq] at hm
        subst hm
        exact ⟨pre.length, rfl, by simp⟩
      · simp only [findStep, hb, if_false, Bool.false_eq_true]
        refine ⟨by simp, ?_⟩
        intro m hm
        simp only [Option.some.injEq] at hm
        subst hm
        exact ⟨i0, hi0, keep _ _ hp0⟩

/-- The comparison behaves like a strict linear preorder on the values satisfying `P`. -/
structure BetterLaw {α : Type} (better : α → α → Bool) (P : α → Prop) : Prop where
  asymm : ∀ a b, P a → P b → better a b = true → better b a = false
  trans : ∀ a b c, P a → P b → P c → better a b = false → better b c = false → better a c = false

theorem BetterLaw.lt_of {α : Type} {better : α → α → Bool} {P : α → Prop} (h : BetterLaw better P)
    {a b c : α} (ha : P a) (hb : P b) (hc : P c) (h1 : better a b = true) (h2 : better c b = false) :
    better a c = true := by
  by_contra hn
  have hn' : better a c = false := by simpa using hn
  have := h.trans a c b ha hc hb hn' h2
  rw [h1] at this; exact absurd this (by simp)

theorem findBest_step {α : Type} (better : α → α → Bool) {P : α → Prop} (law : BetterLaw better P)
    (pre : List (Option α)) (acc) (o : Option α)
    (hP : ∀ v, some v ∈ pre ++ [o] → P v)
    (hI : FindInv better pre acc) (h : FindBest better pre acc) :
    FindBest better (pre ++ [o]) (findStep better acc (pre.length, o)) := by
  obtain ⟨a, b⟩ := acc
  have hPpre : ∀ (j : Nat) (v : α), pre[j]? = some (some v) → P v := fun j v hj =>
    hP v (List.mem_append_left _ (List.mem_of_getElem? hj))
  have irr : ∀ v, P v → better v v = false := fun v hv => by
    by_contra hc
    have hc' : better v v = true := by simpa using hc
    rw [law.asymm v v hv hv hc'] at hc'; simp at hc'
  have split : ∀ (j : Nat) (v : α), (pre ++ [o])[j]? = some (some v) →
      (j < pre.length ∧ pre[j]? = some (some v)) ∨ (j = pre.length ∧ o = some v) := by
    intro j v hj
    rcases Nat.lt_or_ge j pre.length with hlt | hge
    · left; rw [List.getElem?_append_left hlt] at hj; exact ⟨hlt, hj⟩
    · right
      rw [List.getElem?_append_right hge] at hj
      have : j - pre.length = 0 := by
        by_contra hc
        rw [List.getElem?_eq_none (by simp; omega)] at hj; simp at hj
      rw [this] at hj
      exact ⟨by omega, by simpa using hj⟩
  intro m i hm hi j v hj
  cases a with
  | none =>
    cases o with
    | none => simp [findStep] at hm
    | some w =>
      simp only [findStep, Option.some.injEq] at hm hi
      subst hm; subst hi
      rcases split j v hj with ⟨hlt, hj'⟩ | ⟨rfl, hv⟩
      · have := (hI.none rfl).2 _ (List.mem_of_getElem? hj'); simp at this
      · simp only [Option.some.injEq] at hv; subst hv
        exact ⟨irr _ (hP _ (by simp)), by omega⟩
  | some m0 =>
    obtain ⟨i0, hi0, hp0⟩ := hI.some m0 rfl
    have hi0lt : i0 < pre.length := (List.getElem?_eq_some_iff.mp hp0).1
    simp only at hi0
    cases o with
    | none =>
      simp only [findStep] at hm hi
      rcases split j v hj with ⟨hlt, hj'⟩ | ⟨_, hv⟩
      · exact h m i hm hi j v hj'
      · simp at hv
    | some w =>
      have hPw : P w := hP w (by simp)
      have hPm0 : P m0 := hPpre _ _ hp0
      by_cases hb : better w m0 = true
      · simp only [findStep, hb, if_true, Option.some.injEq] at hm hi
        subst hm; subst hi
        rcases split j v hj with ⟨hlt, hj'⟩ | ⟨rfl, hv⟩
        · have hvm := (h m0 i0 rfl hi0 j v hj').1
          have hPv := hPpre _ _ hj'
          have hwv : better w v = true := law.lt_of hPw hPm0 hPv hb hvm
          exact ⟨law.asymm _ _ hPw hPv hwv, fun _ => hwv⟩
        · simp only [Option.some.injEq] at hv; subst hv
          exact ⟨irr _ hPw, by omega⟩
      · have hb' : better w m0 = false := by simpa using hb
        simp only [findStep, hb', Bool.false_eq_true, if_false, Option.some.injEq] at hm hi
        subst hm
        rcases split j v hj with ⟨hlt, hj'⟩ | ⟨rfl, hv⟩
        · exact h m0 i rfl hi j v hj'
        · simp only [Option.some.injEq] at hv; subst hv
          have : i = i0 := by
            rw [hi0] at hi; exact (Option.some.inj hi).symm
          exact ⟨hb', by omega⟩

/-- The body shared by the two functions. -/
def findBest {α : Type} (better : α → α → Bool) (arr : List (Option α)) : Res Nat := do
  assert (!arr.isEmpty)
  let acc := (indexed arr).foldl (findStep better) (none, none)
  match acc.2 with
  | some i => return i
  | none => usub arr.length 1

theorem findMaxIndex_eq {α : Type} [F64 α] (arr : List (Option α)) :
    findMaxIndex arr = findBest (fun v m => F64.lt m v) arr := by
  unfold findMaxIndex findBest; rw [findMaxStep_eq]; rfl
theorem findMinIndex_eq {α : Type} [F64 α] (arr : List (Option α)) :
    findMinIndex arr = findBest (fun v m => F64.lt v m) arr := by
  unfold findMinIndex findBest; rw [findMinStep_eq]; rfl

/-- Without any law of the comparison: never panics on a non-empty array; the index found is inside it, points at a
present value if there is one and is the last index otherwise. -/
theorem findBest_ok {α : Type} (better : α → α → Bool) {arr : List (Option α)} (h : arr ≠ []) :
    ∃ i, findBest better arr = .ok i ∧ i < arr.length ∧
      ((∃ m, arr[i]? = some (some m)) ∨ ((∀ o ∈ arr, o = none) ∧ i = arr.length - 1)) := by
  have hf := find_fold better (fun acc pre => FindInv better pre acc) (fun pre acc o h => findInv_step better pre acc o h)
    arr [] (none, none) ⟨by simp, by simp⟩
  have hidx : indexed arr = (List.range' 0 arr.length).zip arr := by
    simp [indexed, List.range_eq_range']
  simp only [List.length_nil, List.nil_append, ← hidx] at hf
  unfold findBest
  have he : (!arr.isEmpty) = true := by cases arr <;> simp_all
  have hlen : 1 ≤ arr.length := List.length_pos_iff.mpr h
  simp only [he, assert_true, Res.ok_bind]
  cases hacc : ((indexed arr).foldl (findStep better) (none, none)).1 with
  | none =>
    obtain ⟨h1, h2⟩ := hf.none hacc
    simp only [h1]
    exact ⟨arr.length - 1, usub_of_le hlen, by omega, Or.inr ⟨h2, rfl⟩⟩
  | some m =>
    obtain ⟨i, h1, h2⟩ := hf.some m hacc
    simp only [h1]
    exact ⟨i, rfl, (List.getElem?_eq_some_iff.mp h2).1, Or.inl ⟨m, h2⟩⟩

theorem findBest_best {α : Type} (better : α → α → Bool) {P : α → Prop} (law : BetterLaw better P)
    {arr : List (Option α)} (hP : ∀ v, some v ∈ arr → P v) {i : Nat} {m : α}
    (hi : findBest better arr = .ok i) (hm : arr[i]? = some (some m)) (j : Nat) (v : α)
    (hj : arr[j]? = some (some v)) :
    better v m = false ∧ (j < i → better m v = true) := by
  have hf := find_fold better
    (fun acc pre => (∀ v, some v ∈ pre → P v) → (FindInv better pre acc ∧ FindBest better pre acc))
    (fun pre acc o h hP => by
      obtain ⟨h1, h2⟩ := h (fun v hv => hP v (List.mem_append_left _ hv))
      exact ⟨findInv_step better pre acc o h1, findBest_step better law pre acc o hP h1 h2⟩)
    arr [] (none, none) (fun _ => ⟨⟨by simp, by simp⟩, by intro m i hm; simp at hm⟩)
  have hidx : indexed arr = (List.range' 0 arr.length).zip arr := by
    simp [indexed, List.range_eq_range']
  simp only [List.length_nil, List.nil_append, ← hidx] at hf
  obtain ⟨hI, hB⟩ := hf hP
  unfold findBest at hi
  have hne : arr ≠ [] := by rintro rfl; simp at hj
  have he : (!arr.isEmpty) = true := by cases arr <;> simp_all
  simp only [he, assert_true, Res.ok_bind] at hi
  cases hacc : ((indexed arr).foldl (findStep better) (none, none)).1 with
  | none =>
    have := (hI.none hacc).2 _ (List.mem_of_getElem? hj); simp at this
  | some m' =>
    obtain ⟨i', h1, h2⟩ := hI.some m' hacc
    rw [h1] at hi
    simp only [Res.pure_eq, Except.ok.injEq] at hi
    subst hi
    rw [h2] at hm
    simp only [Option.some.injEq] at hm
    subst hm
    exact hB m' i' hacc h1 j v hj

/-! ## The float comparisons, NaN excluded -/

section
variable {K : Type} [Field K] [LinearOrder K]

theorem fl_lt_asymm (a b : Ext K) : a.lt b = true → b.lt a = false := by
  cases a <;> cases b <;> simp [Ext.lt]
  exact le_of_lt

theorem fl_lt_trans_neg (a b c : Ext K) (hb : b ≠ .nan) :
    b.lt a = false → c.lt b = false → c.lt a = false := by
  cases a <;> cases b <;> cases c <;> simp_all [Ext.lt]
  exact fun h1 h2 => le_trans h1 h2

theorem fl_le_of_not_lt (a b : Ext K) (ha : a ≠ .nan) (hb : b ≠ .nan) (h : b.lt a = false) :
    a.le b = true := by
  cases a <;> cases b <;> simp_all [Ext.lt, Ext.le]

theorem maxLaw (R : Rounding K) :
    BetterLaw (fun (v m : Fl R) => F64.lt m v) (fun v => v ≠ Fl.of R .nan) where
  asymm a b _ _ h := fl_lt_asymm b a h
  trans a b c _ hb _ h1 h2 := fl_lt_trans_neg a b c hb h1 h2

theorem minLaw (R : Rounding K) :
    BetterLaw (fun (v m : Fl R) => F64.lt v m) (fun v => v ≠ Fl.of R .nan) where
  asymm a b _ _ h := fl_lt_asymm a b h
  trans a b c _ hb _ h1 h2 := fl_lt_trans_neg c b a hb h2 h1
end

end Pace
