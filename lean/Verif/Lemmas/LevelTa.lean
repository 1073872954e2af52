import Verif.Lemmas.Level
import Verif.Lemmas.Reflect

/-!
# Adding the same amount to all prices: `ta`
-/

set_option linter.unusedSectionVars false
set_option linter.unusedSimpArgs false

namespace Pace
open Spec

section
variable {α : Type} [F64 α]

theorem hist_congr' {β : Type} {x y : Nat → β} {t : Nat} (h : ∀ k, k < t → x k = y k) : hist x t = hist y t := by
  unfold hist
  apply List.map_congr_left
  intro k hk
  exact h k (List.mem_range.mp hk)

theorem validatorInv_congr {x y : Nat → Option α} {len t : Nat} (h : ∀ k, k < t → x k = y k) {s : WindowValidator}
    (hs : ValidatorInv x len t s) : ValidatorInv y len t s where
  len := hs.len
  none e k hk := by rw [← h k hk]; exact hs.none e k hk
  last e := by
    obtain ⟨h1, h2, h3⟩ := hs.last e
    exact ⟨h1, by rw [← h _ h1]; exact h2, fun k h4 h5 => by rw [← h k h5]; exact h3 k h4 h5⟩

theorem smaInv_congr {x y : Nat → Option α} {len t : Nat} (h : ∀ k, k < t → x k = y k) {s : Sma α} (hs : SmaInv len x t s) :
    SmaInv len y t s := by
  obtain ⟨h1, h2⟩ := hs
  refine ⟨h1, fun hl => ?_⟩
  obtain ⟨ha, hb, hc, hd⟩ := h2 hl
  exact ⟨ha, hb.trans (acc0_congr len t h), hc.trans (by rw [hist_congr' h]), validatorInv_congr h hd⟩

/-- The series that continues `x` with `v` from tick `t` on. -/
def extend {β : Type} (x : Nat → β) (t : Nat) (v : β) : Nat → β := fun i => if i < t then x i else v
theorem extend_before {β : Type} (x : Nat → β) (t : Nat) (v : β) : ∀ k, k < t → x k = extend x t v k := fun k hk => by simp [extend, hk]
theorem extend_at {β : Type} (x : Nat → β) (t : Nat) (v : β) : extend x t v t = v := by simp [extend]

end

variable {K : Type} [Field K] [LinearOrder K] [IsStrictOrderedRing K] [RootOps K]

/-! ## Simple average -/

/-- The series `k` higher. -/
def raiseS (k : K) (x : Nat → Option (Ex K)) : Nat → Option (Ex K) := fun t => (x t).map (raise k)

theorem raiseS_extend (k : K) (x : Nat → Option (Ex K)) (t : Nat) (v : Option (Ex K)) :
    raiseS k (extend x t v) = extend (raiseS k x) t (v.map (raise k)) := by
  funext i; unfold raiseS extend; split <;> rfl

theorem windowPresent_raise (k : K) (x : Nat → Option (Ex K)) (len t : Nat) : WindowPresent (raiseS k x) len t ↔ WindowPresent x len t := by
  unfold WindowPresent raiseS
  simp only [Option.isSome_map]

/-- One for each present value. -/
def onesOf (x : Nat → Option (Ex K)) : Nat → Option K := fun t => (x t).map fun _ => 1

theorem acc0_raise (k : K) (len : Nat) (x : Nat → Option (Ex K)) (t : Nat) :
    ∃ n : K, acc0 len (flo (onesOf x)) t = fin n ∧ acc0 len (raiseS k x) t = raise (n * k) (acc0 len x t) := by
  have hadd : ∀ (n : K) (s : Ex K) (o : Option (Ex K)), ∃ m : K, addOpt (fin n : Ex K) ((o.map fun _ => (1 : K)).map fin) = fin m ∧
      addOpt (raise (n * k) s) (o.map (raise k)) = raise (m * k) (addOpt s o) := by
    intro n s o
    cases o with
    | none => exact ⟨n, rfl, rfl⟩
    | some a =>
      refine ⟨n + 1, rfl, ?_⟩
      show raise (n * k) s + raise k a = raise ((n + 1) * k) (s + a)
      rw [raise_add, add_mul, one_mul]
  have hsub : ∀ (n : K) (s : Ex K) (o : Option (Ex K)), ∃ m : K, subOpt (fin n : Ex K) ((o.map fun _ => (1 : K)).map fin) = fin m ∧
      subOpt (raise (n * k) s) (o.map (raise k)) = raise (m * k) (subOpt s o) := by
    intro n s o
    cases o with
    | none => exact ⟨n, rfl, rfl⟩
    | some a =>
      refine ⟨n - 1, fin_sub _ _, ?_⟩
      show raise (n * k) s - raise k a = raise ((n - 1) * k) (s - a)
      rw [raise_sub, sub_mul, one_mul]
  induction t with
  | zero => exact ⟨0, by simp [acc0], by rw [zero_mul, raise_zero]; rfl⟩
  | succ t ih =>
    obtain ⟨n, h1, h2⟩ := ih
    obtain ⟨m, h3, h4⟩ := hadd n (acc0 len x t) (x t)
    obtain ⟨m', h5, h6⟩ := hsub m (addOpt (acc0 len x t) (x t)) (ago x (len - 1) t)
    refine ⟨m', ?_, ?_⟩
    · rw [acc0, h1]
      have e : ago (flo (onesOf x)) (len - 1) t = ((ago x (len - 1) t).map fun _ => (1 : K)).map fin := by
        unfold ago; split <;> rfl
      rw [e]
      show subOpt (addOpt (fin n : Ex K) (((x t).map fun _ => (1 : K)).map fin)) _ = _
      rw [h3, h5]
    · rw [acc0, h2]
      have e : ago (raiseS k x) (len - 1) t = (ago x (len - 1) t).map (raise k) := by
        unfold ago; split <;> rfl
      rw [e]
      show subOpt (addOpt _ ((x t).map (raise k))) _ = _
      rw [h4, h6]
      rfl

theorem ones_window {x : Nat → Option (Ex K)} {len t : Nat} (h1 : len ≤ t + 1) (h : WindowPresent x len t) :
    ∃ v, fullWindow (onesOf x) len t = some v ∧ v.sum = (len : K) := by
  have hp : ∀ o ∈ win x len t, o.isSome := (WindowPresent.iff_win h1).mp h
  have e : win (onesOf x) len t = (win x len t).map fun o => o.map fun _ => (1 : K) := by
    rw [win_map]; rfl
  have key : ∀ l : List (Option (Ex K)), (∀ o ∈ l, o.isSome) → allSome (l.map fun o => o.map fun _ => (1 : K)) = some (List.replicate l.length 1) := by
    intro l
    induction l with
    | nil => intro _; rfl
    | cons o l ih =>
      intro hl
      have ho := hl o (by simp)
      obtain ⟨a, rfl⟩ := Option.isSome_iff_exists.mp ho
      simp only [List.map_cons, Option.map_some, allSome, ih fun o ho => hl o (by simp [ho]), List.length_cons, List.replicate_succ]
  refine ⟨List.replicate len 1, ?_, by simp⟩
  unfold fullWindow
  rw [if_pos h1, e, key _ hp, win_length]

theorem rawSum0_raise (k : K) {len : Nat} (hlen : 1 ≤ len) {x : Nat → Option (Ex K)} {t : Nat} (h1 : len ≤ t + 1) (h : WindowPresent x len t) :
    rawSum0 len (raiseS k x) t = raise ((len : K) * k) (rawSum0 len x t) := by
  obtain ⟨v, hv, hs⟩ := ones_window h1 h
  have h2 := rawSum0_exact hlen hv
  obtain ⟨n, h3, h4⟩ := acc0_raise k len x t
  obtain ⟨a, ha⟩ := Option.isSome_iff_exists.mp (h t le_rfl (by omega))
  have e1 : flo (onesOf x) t = some (fin 1 : Ex K) := by simp [onesOf, flo, ha]
  have e2 : raiseS k x t = some (raise k a) := by simp [raiseS, ha]
  unfold rawSum0 at h2 ⊢
  rw [h3, e1] at h2
  have h5 : n + 1 = (len : K) := hs ▸ fin_inj.mp h2
  rw [h4, e2, ha]
  show raise (n * k) _ + raise k a = raise _ (_ + a)
  rw [raise_add, ← h5, add_mul, one_mul]

theorem sma0_raise (k : K) {len : Nat} (hlen : 1 ≤ len) (x : Nat → Option (Ex K)) (t : Nat) :
    sma0 len (raiseS k x) t = (sma0 len x t).map (raise k) := by
  unfold sma0
  by_cases hl : len = 1
  · rw [if_pos hl, if_pos hl]; rfl
  · rw [if_neg hl, if_neg hl]
    by_cases hw : len ≤ t + 1 ∧ WindowPresent x len t
    · rw [if_pos hw, if_pos ⟨hw.1, (windowPresent_raise k x len t).mpr hw.2⟩, rawSum0_raise k hlen hw.1 hw.2, fin_lit_nat]
      have hne : (len : K) ≠ 0 := by exact_mod_cast (by omega : len ≠ 0)
      rw [raise_div _ hne, mul_div_cancel_left₀ _ hne]
      rfl
    · rw [if_neg hw, if_neg fun h => hw ⟨h.1, (windowPresent_raise k x len t).mp h.2⟩]
      rfl

/-- The states of the same average, fed `k` more. -/
def SmaUp (k : K) (len t : Nat) (s s' : Sma (Ex K)) : Prop :=
  1 ≤ len ∧ ∃ x, SmaInv len x t s ∧ SmaInv len (raiseS k x) t s'

theorem smaUp_follows {k : K} {len : Nat} (p v : Ex K → Ex K) (c : Ctx (Ex K)) {s s' : Sma (Ex K)} (x : Option (Ex K)) (h : SmaUp k len c.index s s') :
    Alike (fun q q' => q'.1 = q.1.map (raise k) ∧ SmaUp k len (c.index + 1) q.2 q'.2) (s.next c x) (s'.next (c.rescale p v) (x.map (raise k))) := by
  obtain ⟨hlen, y, h1, h2⟩ := h
  obtain ⟨a, ha, ha'⟩ := sma_step (d := c.data) hlen (smaInv_congr (extend_before y c.index x) h1)
  obtain ⟨b, hb, hb'⟩ := sma_step (d := c.data.rescale p v) hlen (smaInv_congr (extend_before (raiseS k y) c.index (x.map (raise k))) h2)
  rw [extend_at] at ha hb
  have e1 : s.next c x = _ := ha
  have e2 : s'.next (c.rescale p v) (x.map (raise k)) = _ := hb
  rw [e1, e2]
  refine ⟨?_, hlen, extend y c.index x, ha', by rw [raiseS_extend]; exact hb'⟩
  show sma0 len _ _ = (sma0 len _ _).map (raise k)
  rw [← sma0_raise k hlen, raiseS_extend]

theorem smaUp_init {k : K} {len : Nat} {s : Sma (Ex K)} (h : Sma.new len = .ok s) : SmaUp k len 0 s s := by
  have hlen : 1 ≤ len := by
    by_contra hc
    simp [Sma.new, hc] at h
  obtain ⟨a, ha, ha'⟩ := sma_init (α := Ex K) (fun _ => none) hlen
  rw [ha] at h
  have := Except.ok.inj h; subst this
  exact ⟨hlen, fun _ => none, ha', ha'⟩

section
variable (k : K) (p v : Ex K → Ex K)

def smaL (len : Nat) : Lift p v (Option.map (raise k)) (Option.map (raise k)) Sma.next (Sma.new len) where
  Rel := SmaUp k len
  follows c _ _ x h := smaUp_follows p v c x h
  init _ h := smaUp_init h

/-! ## Exponential average -/

structure EmaUp (len : Nat) (a : K) (t : Nat) (s s' : Ema (Ex K)) : Prop where
  length : s.length = len
  length' : s'.length = len
  alpha : s.alpha = fin a
  alpha' : s'.alpha = fin a
  prev : s'.prevValue = s.prevValue.map (raise k)
  sma : len ≠ 1 → s.prevValue = none → SmaUp k len t s.sma s'.sma
  late : s.prevValue.isSome → len ≤ t + 2

theorem ema_mix (a : K) (x y : Ex K) :
    fin a * raise k x + (lit 1 - fin a) * raise k y = raise k (fin a * x + (lit 1 - fin a) * y) := by
  have e : (lit 1 - fin a : Ex K) = fin (1 - a) := by rw [fin_lit, Rat.cast_one]; exact fin_sub _ _
  rw [e, mul_raise, mul_raise, raise_add, ← add_mul, add_sub_cancel, one_mul]

theorem emaUp_follows {len : Nat} {a : K} (c : Ctx (Ex K)) (s s' : Ema (Ex K)) (x : Option (Ex K)) (h : EmaUp k len a c.index s s') (h1 : 1 ≤ len) :
    Alike (fun q q' => q'.1 = q.1.map (raise k) ∧ EmaUp k len a (c.index + 1) q.2 q'.2) (s.next c x) (s'.next (c.rescale p v) (x.map (raise k))) := by
  unfold Ema.next
  simp only [h.length, h.length', h.alpha, h.alpha', h.prev, Ctx.rescale_atLength]
  by_cases hl : len = 1
  · rw [if_pos hl, if_pos hl]
    exact ⟨rfl, h.length, h.length', h.alpha, h.alpha', h.prev, fun hn => absurd hl hn, fun _ => by omega⟩
  · rw [if_neg hl, if_neg hl, usub_of_le h1]
    simp only [Res.ok_bind]
    have e : c.atLength (len - 1) = .ok (decide (len - 1 ≤ c.index + 1)) := by
      unfold Ctx.atLength
      rw [usub_of_le (by omega)]
      exact congrArg Except.ok (decide_eq_decide.mpr (by omega))
    rw [e]
    simp only [Res.ok_bind]
    have both (hp : s.prevValue = none) : Alike (fun (q q' : Option (Ex K) × Sma (Ex K)) => q'.1 = q.1.map (raise k) ∧ SmaUp k len (c.index + 1) q.2 q'.2)
        (s.sma.next c x) (s'.sma.next (c.rescale p v) (x.map (raise k))) := smaUp_follows p v c x (h.sma hl hp)
    rcases hpv : s.prevValue with _ | pv
    · have hb := both hpv
      by_cases ht : len - 1 ≤ c.index + 1
      · simp only [ht, decide_true, Bool.not_true, Bool.false_eq_true, if_false]
        refine hb.bind ?_
        rintro ⟨r, m⟩ ⟨r', m'⟩ ⟨hr, hm⟩
        exact ⟨hr, rfl, rfl, rfl, rfl, hr, fun _ _ => hm, fun _ => by omega⟩
      · simp only [ht, decide_false, Bool.not_false, if_true]
        refine hb.bind ?_
        rintro ⟨r, m⟩ ⟨r', m'⟩ ⟨hr, hm⟩
        exact ⟨rfl, rfl, rfl, rfl, rfl, rfl, fun _ _ => hm, fun hs => by cases hs⟩
    · have hlt := h.late (by rw [hpv]; rfl)
      have ht : len - 1 ≤ c.index + 1 := by omega
      simp only [ht, decide_true, Bool.not_true, Bool.false_eq_true, if_false]
      cases x with
      | none => exact rfl
      | some x =>
        refine ⟨?_, rfl, rfl, rfl, rfl, ?_, fun _ hn => (by cases hn), fun _ => (by omega)⟩
        · exact congrArg some (ema_mix k a x pv)
        · exact congrArg some (ema_mix k a x pv)

theorem emaUp_init {len : Nat} {a : K} {s : Ema (Ex K)} (h : Ema.withAlpha len (fin a) = .ok s) : 1 ≤ len ∧ EmaUp k len a 0 s s := by
  have hlen : 1 ≤ len := by
    by_contra hc
    simp [Ema.withAlpha, hc] at h
  refine ⟨hlen, ?_⟩
  unfold Ema.withAlpha at h
  obtain ⟨_, _, h⟩ := Res.bind_ok h
  obtain ⟨m, hm, h⟩ := Res.bind_ok h
  have := Except.ok.inj h; subst this
  exact ⟨rfl, rfl, rfl, rfl, rfl, fun _ _ => smaUp_init hm, fun hs => by cases hs⟩

def emaAlphaL (len : Nat) (a : K) : Lift p v (Option.map (raise k)) (Option.map (raise k)) Ema.next (Ema.withAlpha len (fin a)) where
  Rel t s s' := 1 ≤ len ∧ EmaUp k len a t s s'
  follows c s s' x h := (emaUp_follows k p v c s s' x h.2 h.1).mono fun _ _ q => ⟨q.1, h.1, q.2⟩
  init _ h := emaUp_init k h

theorem ema_alpha (len : Nat) : (lit 2 / (lit (len : ℚ) + lit 1) : Ex K) = fin (2 / ((len : K) + 1)) := by
  have h : ((len : K) + 1) ≠ 0 := by positivity
  simp only [fin_lit, Rat.cast_natCast, Rat.cast_one, Rat.cast_ofNat]
  exact fin_div _ _ h

def emaL (len : Nat) : Lift p v (Option.map (raise k)) (Option.map (raise k)) Ema.next (Ema.new len) := by
  unfold Ema.new
  rw [ema_alpha]
  exact emaAlphaL k p v len _

/-! ## Running average -/

structure RmaUp (len : Nat) (t : Nat) (s s' : Rma (Ex K)) : Prop where
  pos : 1 ≤ len
  ema : EmaUp k len (1 / (len : K)) t s.ema s'.ema

theorem rma_alpha {len : Nat} (h : 1 ≤ len) : (lit 1 / lit (len : ℚ) : Ex K) = fin (1 / (len : K)) := by
  have h : (len : K) ≠ 0 := by exact_mod_cast (by omega : len ≠ 0)
  simp only [fin_lit, Rat.cast_natCast, Rat.cast_one]
  exact fin_div _ _ h

def rmaL (len : Nat) : Lift p v (Option.map (raise k)) (Option.map (raise k)) Rma.next (Rma.new len) where
  Rel := RmaUp k len
  follows c s s' x h := by
    unfold Rma.next
    refine (emaUp_follows k p v c _ _ x h.ema h.pos).bind ?_
    rintro ⟨r, m⟩ ⟨r', m'⟩ ⟨hr, hm⟩
    exact ⟨hr, h.pos, hm⟩
  init s h := by
    unfold Rma.new at h
    obtain ⟨_, h0, h⟩ := Res.bind_ok h
    have hlen : 1 ≤ len := by
      by_contra hc
      simp [hc] at h0
    obtain ⟨m, hm, h⟩ := Res.bind_ok h
    have := Except.ok.inj h; subst this
    rw [rma_alpha hlen] at hm
    exact ⟨hlen, (emaUp_init k hm).2⟩

/-! ## Weighted averages -/

end

theorem raise_avg (k n : K) (a : Ex K) : raise (n * k) a / fin n = raise k (a / fin n) := by
  by_cases h : n = 0
  · subst h
    rw [zero_mul, raise_zero, raise_eq]
    show Fl.div (Rounding.exact K) a (Ext.fin 0) = Ext.shift k (Fl.div (Rounding.exact K) a (Ext.fin 0))
    cases a
    · rfl
    · simp only [Fl.div, lt_irrefl, if_false]; rfl
    · simp only [Fl.div, lt_irrefl, if_false]; rfl
    · simp only [Fl.div, if_true, signInf_shift]
  · rw [raise_div _ h, mul_div_cancel_left₀ _ h]

theorem allSome_raise {β γ : Type} (f : β → γ) (l : List (Option β)) : allSome (l.map (Option.map f)) = (allSome l).map (List.map f) := by
  induction l with
  | nil => rfl
  | cons o l ih =>
    cases o with
    | none => rfl
    | some a =>
      simp only [List.map_cons, Option.map_some, allSome_some, ih]
      cases allSome l <;> rfl

theorem wmaFold_raise (k : K) (len : Nat) (l : List (Ex K)) :
    ∃ n : K, (wmaFold len l).2 = fin n ∧ wmaFold len (l.map (raise k)) = (raise (n * k) (wmaFold len l).1, fin n) := by
  unfold wmaFold
  rw [Linear.indexed_map]
  have key : ∀ (l : List (Nat × Ex K)) (S : Ex K) (n : K), ∃ m : K,
      (l.foldl (fun acc iv =>
        let weight : Ex K := lit (((len - iv.1) * len : Nat) : ℚ)
        (acc.1 + iv.2 * weight, acc.2 + weight)) (S, fin n)).2 = fin m ∧
      (l.map fun q => (q.1, raise k q.2)).foldl (fun acc iv =>
        let weight : Ex K := lit (((len - iv.1) * len : Nat) : ℚ)
        (acc.1 + iv.2 * weight, acc.2 + weight)) (raise (n * k) S, fin n) =
        (raise (m * k) (l.foldl (fun acc iv =>
        let weight : Ex K := lit (((len - iv.1) * len : Nat) : ℚ)
        (acc.1 + iv.2 * weight, acc.2 + weight)) (S, fin n)).1, fin m) := by
    intro l
    induction l with
    | nil => intro S n; exact ⟨n, rfl, rfl⟩
    | cons q l ih =>
      intro S n
      obtain ⟨i, a⟩ := q
      obtain ⟨m, h1, h2⟩ := ih (S + a * lit (((len - i) * len : Nat) : ℚ)) (n + (((len - i) * len : Nat) : K))
      refine ⟨m, ?_, ?_⟩
      · rw [← h1]
        simp only [List.foldl_cons, fin_lit_nat, fin_add]
      · simp only [fin_lit_nat] at h2
        simp only [List.map_cons, List.foldl_cons, fin_lit_nat, fin_add]
        rw [raise_mul, raise_add, show n * k + k * (((len - i) * len : Nat) : K) = (n + (((len - i) * len : Nat) : K)) * k by ring]
        exact h2
  have h := key (indexed l) (lit 0) 0
  rw [zero_mul, raise_zero] at h
  have e : (lit 0 : Ex K) = fin 0 := by simp
  simpa only [e] using h

theorem wma0_raise (k : K) (len : Nat) (x : Nat → Option (Ex K)) (t : Nat) : wma0 len (raiseS k x) t = (wma0 len x t).map (raise k) := by
  unfold wma0
  split
  · have e : win (raiseS k x) len t = (win x len t).map (Option.map (raise k)) := by rw [win_map]; rfl
    rw [e, allSome_raise]
    cases allSome (win x len t) with
    | none => rfl
    | some l =>
      simp only [Option.map_some, ← List.map_reverse]
      obtain ⟨n, h1, h2⟩ := wmaFold_raise k len l.reverse
      rw [h2, h1, raise_avg]
  · rfl

theorem swma0_raise (k : K) (x : Nat → Option (Ex K)) (t : Nat) : swma0 (raiseS k x) t = (swma0 x t).map (raise k) := by
  unfold swma0
  split
  · have e : win (raiseS k x) 4 t = (win x 4 t).map (Option.map (raise k)) := by rw [win_map]; rfl
    rw [e, allSome_raise]
    have e1 : (lit 1 / lit 6 : Ex K) = fin (1 / 6) := by
      simp only [fin_lit, Rat.cast_one, Rat.cast_ofNat]; exact fin_div _ _ (by norm_num)
    have e2 : (lit 2 / lit 6 : Ex K) = fin (2 / 6) := by
      simp only [fin_lit, Rat.cast_ofNat]; exact fin_div _ _ (by norm_num)
    rw [e1, e2]
    have key (a b c d : Ex K) : lit 0 + raise k a * fin (1 / 6) + raise k b * fin (2 / 6) + raise k c * fin (2 / 6) + raise k d * fin (1 / 6) =
        raise k (lit 0 + a * fin (1 / 6) + b * fin (2 / 6) + c * fin (2 / 6) + d * fin (1 / 6)) := by
      have h := raise_add 0 (k * (1 / 6)) (lit 0) (a * fin (1 / 6))
      rw [raise_zero] at h
      rw [raise_mul, raise_mul, raise_mul, raise_mul, h, raise_add, raise_add, raise_add]
      congr 1
      ring
    rcases allSome (win x 4 t) with _ | (_ | ⟨a, _ | ⟨b, _ | ⟨c, _ | ⟨d, _ | ⟨e, l⟩⟩⟩⟩⟩)
    · rfl
    · rfl
    · rfl
    · rfl
    · rfl
    · exact congrArg some (key a b c d)
    · rfl
  · rfl

/-! ## A component whose outputs depend only on the inputs, compared on two inputs -/

/-- From a proof of what the component computes: the states after `t` inputs. -/
def Lift.series {S : Type} {O : Type} {next : Ctx (Ex K) → S → Option (Ex K) → Res (O × S)} {new : Res S} (k : K) (p v : Ex K → Ex K) (output : O → O)
    (Inv : (Nat → Option (Ex K)) → Nat → S → Prop) (y : (Nat → Option (Ex K)) → Nat → O)
    (h0 : ∀ s x, new = .ok s → Inv x 0 s)
    (hs : ∀ d x t s, Inv x t s → ∃ s', next ⟨d, t⟩ s (x t) = .ok (y x t, s') ∧ Inv x (t + 1) s')
    (hc : ∀ x x' t s, (∀ i, i < t → x i = x' i) → Inv x t s → Inv x' t s)
    (hy : ∀ x t s, Inv x t s → y (raiseS k x) t = output (y x t)) :
    Lift p v (Option.map (raise k)) output next new where
  Rel t s s' := ∃ x, Inv x t s ∧ Inv (raiseS k x) t s'
  follows c s s' x h := by
    obtain ⟨z, h1, h2⟩ := h
    obtain ⟨a, ha, ha'⟩ := hs c.data _ _ _ (hc _ _ _ _ (extend_before z c.index x) h1)
    obtain ⟨b, hb, hb'⟩ := hs (c.data.rescale p v) _ _ _ (hc _ _ _ _ (extend_before (raiseS k z) c.index (x.map (raise k))) h2)
    rw [extend_at] at ha hb
    have e1 : next c s x = _ := ha
    have e2 : next (c.rescale p v) s' (x.map (raise k)) = _ := hb
    rw [e1, e2]
    refine ⟨?_, extend z c.index x, ha', by rw [raiseS_extend]; exact hb'⟩
    show y _ _ = output (y _ _)
    rw [← hy _ _ _ (hc _ _ _ _ (extend_before z c.index x) h1), raiseS_extend]
  init s h := ⟨fun _ => none, h0 s _ h, h0 s _ h⟩

section
variable (k : K) (p v : Ex K → Ex K)

theorem hist_inv {x x' : Nat → Option (Ex K)} {t len : Nat} {w : WindowCache (Option (Ex K))} (h : ∀ i, i < t → x i = x' i)
    (hw : w = ⟨len, hist x t⟩) : w = ⟨len, hist x' t⟩ := by rw [← hist_congr' h]; exact hw

def wmaL (len : Nat) : Lift p v (Option.map (raise k)) (Option.map (raise k)) Wma.next (Wma.new len) :=
  .series k p v _ (fun x t s => 1 ≤ len ∧ WmaInv len x t s) (wma0 len)
    (fun s x h => by
      have hlen : 1 ≤ len := by
        by_contra hc
        simp [Wma.new, hc] at h
      obtain ⟨a, ha, ha'⟩ := wma_init x hlen
      rw [ha] at h
      have := Except.ok.inj h; subst this
      exact ⟨hlen, ha'⟩)
    (fun d x t s h => by
      obtain ⟨s', h1, h2⟩ := wma_step (d := d) h.1 h.2
      exact ⟨s', h1, h.1, h2⟩)
    (fun x x' t s hx h => ⟨h.1, h.2.1, hist_inv hx h.2.2.1, validatorInv_congr hx h.2.2.2⟩)
    (fun x t _ _ => wma0_raise k len x t)

def swmaL : Lift p v (Option.map (raise k)) (Option.map (raise k)) Swma.next Swma.new :=
  .series k p v _ SwmaInv swma0
    (fun s x h => by
      obtain ⟨a, ha, ha'⟩ := swma_init x
      rw [ha] at h
      have := Except.ok.inj h; subst this
      exact ha')
    (fun d x t s h => swma_step (d := d) h)
    (fun x x' t s hx h => ⟨h.1, hist_inv hx h.2.1, validatorInv_congr hx h.2.2⟩)
    (fun x t _ _ => swma0_raise k x t)

/-! ## Deviations -/

theorem dev0_raise {len : Nat} (hlen : 1 ≤ len) (x : Nat → Option (Ex K)) (t : Nat) : dev0 len (raiseS k x) t = dev0 len x t := by
  unfold dev0
  rw [sma0_raise k hlen]
  have e : win (raiseS k x) len t = (win x len t).map (Option.map (raise k)) := by rw [win_map]; rfl
  rw [e]
  split
  · rfl
  · cases sma0 len x t with
    | none => rfl
    | some m =>
      have e2 : ((win x len t).map (Option.map (raise k))).map (fun v => F64.abs (v.getD (raise k m) - raise k m)) =
          (win x len t).map fun v => F64.abs (v.getD m - m) := by
        rw [List.map_map]
        apply List.map_congr_left
        intro o _
        cases o <;> simp only [Function.comp, Option.map_none, Option.map_some, Option.getD_none, Option.getD_some, raise_diff]
      simp only [Option.map_some]
      rw [e2]

def devL (len : Nat) : Lift p v (Option.map (raise k)) id Dev.next (Dev.new len) :=
  .series k p v _ (fun x t s => 1 ≤ len ∧ DevInv len x t s) (dev0 len)
    (fun s x h => by
      have hlen : 1 ≤ len := by
        by_contra hc
        simp [Dev.new, hc] at h
      obtain ⟨a, ha, ha'⟩ := dev_init x hlen
      rw [ha] at h
      have := Except.ok.inj h; subst this
      exact ⟨hlen, ha'⟩)
    (fun d x t s h => by
      obtain ⟨s', h1, h2⟩ := dev_step (d := d) h.1 h.2
      exact ⟨s', h1, h.1, h2⟩)
    (fun x x' t s hx h => ⟨h.1, h.2.1, fun hl => ⟨hist_inv hx (h.2.2 hl).1, smaInv_congr hx (h.2.2 hl).2⟩⟩)
    (fun x t _ h => dev0_raise k h.1 x t)

theorem stdev0_raise {len : Nat} (hlen : 1 ≤ len) (b : Bool) (x : Nat → Option (Ex K)) (t : Nat) : stdev0 len b (raiseS k x) t = stdev0 len b x t := by
  unfold stdev0
  rw [sma0_raise k hlen]
  have e : win (raiseS k x) len t = (win x len t).map (Option.map (raise k)) := by rw [win_map]; rfl
  rw [e]
  split
  · rfl
  · cases sma0 len x t with
    | none => rfl
    | some m =>
      have e3 (a : Ex K) : Stdev.computeSum (raise k a) (-(raise k m)) = Stdev.computeSum a (-m) := by
        unfold Stdev.computeSum
        rw [raise_neg, raise_add, add_neg_cancel, raise_zero]
      refine congrArg (fun l : List (Ex K) => some (if b then F64.sqrt (fsum l / lit (len : ℚ)) else F64.sqrt (fsum l / lit ((len - 1 : Nat) : ℚ)))) ?_
      rw [List.map_map]
      apply List.map_congr_left
      intro o _
      cases o with
      | none => rfl
      | some a => exact congrArg sq (e3 a)

def stdevL (len : Nat) (b : Bool) : Lift p v (Option.map (raise k)) id Stdev.next (Stdev.new len b) :=
  .series k p v _ (fun x t s => 1 ≤ len ∧ StdevInv len b x t s) (stdev0 len b)
    (fun s x h => by
      have hlen : 1 ≤ len := by
        by_contra hc
        simp [Stdev.new, hc] at h
      obtain ⟨a, ha, ha'⟩ := stdev_init x b hlen
      rw [ha] at h
      have := Except.ok.inj h; subst this
      exact ⟨hlen, ha'⟩)
    (fun d x t s h => by
      obtain ⟨s', h1, h2⟩ := stdev_step (d := d) h.1 h.2
      exact ⟨s', h1, h.1, h2⟩)
    (fun x x' t s hx h => ⟨h.1, h.2.1, h.2.2.1, fun hl => ⟨hist_inv hx (h.2.2.2 hl).1, smaInv_congr hx (h.2.2.2 hl).2⟩⟩)
    (fun x t _ h => stdev0_raise k h.1 b x t)

/-! ## Averages chosen by kind -/

/-- The states of the same average, fed `k` more. -/
inductive MaUp (t : Nat) : Ma (Ex K) → Ma (Ex K) → Prop
  | sma {len : Nat} {a a' : Sma (Ex K)} : SmaUp k len t a a' → MaUp t (.sma a) (.sma a')
  | ema {len : Nat} {al : K} {a a' : Ema (Ex K)} : 1 ≤ len → EmaUp k len al t a a' → MaUp t (.ema a) (.ema a')
  | rma {len : Nat} {a a' : Rma (Ex K)} : RmaUp k len t a a' → MaUp t (.rma a) (.rma a')
  | swma {a a' : Swma (Ex K)} : (swmaL k id id).Rel t a a' → MaUp t (.swma a) (.swma a')

def maL (kind : MaKind) (len : Nat) : Lift p v (Option.map (raise k)) (Option.map (raise k)) Ma.next (Ma.new kind len) where
  Rel := MaUp k
  follows c a a' x h := by
    cases h with
    | sma h =>
      refine (smaUp_follows p v c x h).bind ?_
      rintro ⟨r, b⟩ ⟨r', b'⟩ ⟨h1, h2⟩
      exact ⟨h1, .sma h2⟩
    | ema hl h =>
      refine (emaUp_follows k p v c _ _ x h hl).bind ?_
      rintro ⟨r, b⟩ ⟨r', b'⟩ ⟨h1, h2⟩
      exact ⟨h1, .ema hl h2⟩
    | rma h =>
      refine ((rmaL k p v _).follows c _ _ x h).bind ?_
      rintro ⟨r, b⟩ ⟨r', b'⟩ ⟨h1, h2⟩
      exact ⟨h1, .rma h2⟩
    | swma h =>
      refine ((swmaL k p v).follows c _ _ x h).bind ?_
      rintro ⟨r, b⟩ ⟨r', b'⟩ ⟨h1, h2⟩
      exact ⟨h1, .swma h2⟩
  init s h := by
    cases kind with
    | sma =>
      obtain ⟨a, ha, h⟩ := Res.bind_ok h
      have := Except.ok.inj h; subst this
      exact .sma (smaUp_init ha)
    | ema =>
      obtain ⟨a, ha, h⟩ := Res.bind_ok h
      have := Except.ok.inj h; subst this
      unfold Ema.new at ha
      rw [ema_alpha] at ha
      exact .ema (emaUp_init k ha).1 (emaUp_init k ha).2
    | rma =>
      obtain ⟨a, ha, h⟩ := Res.bind_ok h
      have := Except.ok.inj h; subst this
      exact .rma ((rmaL k id id len).init a ha)
    | swma =>
      obtain ⟨a, ha, h⟩ := Res.bind_ok h
      have := Except.ok.inj h; subst this
      exact .swma ((swmaL k id id).init a ha)

/-! ## Comparisons only -/

def highestL (len : Nat) : Lift p v (Option.map (raise k)) (Option.map (raise k)) Highest.next (Highest.new len) :=
  .of (Highest.rescale (raise k)) (by unfold Highest.new; by_cases h : 1 ≤ len <;> simp [h, Highest.rescale] <;> rfl)
    fun c s x => (raiseI k).highest c p v s x
def lowestL (len : Nat) : Lift p v (Option.map (raise k)) (Option.map (raise k)) Lowest.next (Lowest.new len) :=
  .of (Lowest.rescale (raise k)) (by unfold Lowest.new; by_cases h : 1 ≤ len <;> simp [h, Lowest.rescale] <;> rfl)
    fun c s x => (raiseI k).lowest c p v s x
def prankL (len : Nat) : Lift p v (Option.map (raise k)) id Prank.next (Prank.new len) :=
  .of (Prank.rescale (raise k)) (by unfold Prank.new; by_cases h : 1 ≤ len <;> simp [h, Prank.rescale] <;> rfl)
    fun c s x => (raiseI k).prank c p v s x

/-! ## Stochastic, true range, RSI -/

theorem stoch_raise (x : Option (Ex K)) (h l : List (Option (Ex K))) (o : Option (Ex K)) :
    stoch (x.map (raise k)) (h.map (Option.map (raise k))) (l.map (Option.map (raise k))) o = stoch x h l o := by
  unfold stoch
  have e1 := (raiseI k).highestL h
  have e2 := (raiseI k).lowestL l
  cases x with
  | none => rfl
  | some x =>
    simp only [Option.map_some]
    rw [show highest (h.map (Option.map (raise k))) = _ from e1, show lowest (l.map (Option.map (raise k))) = _ from e2]
    simp only [Res.map_bind]
    refine Res.bind_congr fun a => Res.bind_congr fun b => ?_
    have e3 : (raiseI k).f = raise k := rfl
    cases a <;> cases b <;> simp only [e3, Option.map_none, Option.map_some, raise_diff]

def stochL (len : Nat) : Lift p v (fun x => (x.1.map (raise k), x.2.1.map (raise k), x.2.2.map (raise k))) id Stoch.next (Stoch.new len) :=
  .of (Stoch.rescale (raise k)) (by unfold Stoch.new; by_cases h : 1 ≤ len <;> simp [h, Stoch.rescale] <;> rfl)
    fun c s x => by
      unfold Stoch.next
      simp only [Stoch.rescale, WindowCache.rescale, WindowCache.mapC_next, Ctx.rescale_atLength, Res.bind_map, WindowCache.mapC_all, Res.map_bind,
        Res.ite_map, stoch_raise]
      refine Res.bind_congr fun b => ?_
      split
      · rfl
      · rfl

theorem tr_raise (c : Ctx (Ex K)) (na : Bool) : Tr.next (c.rescale (raise k) v) na = Tr.next c na := by
  unfold Tr.next
  simp only [Ctx.rescale_barHigh, Ctx.rescale_barLow, Ctx.rescale_high, Ctx.rescale_low, Ctx.rescale_close, Res.map_bind, Res.bind_map,
    unwrap_map]
  refine Res.bind_congr fun _ => Res.bind_congr fun h => Res.bind_congr fun _ => Res.bind_congr fun l => Res.bind_congr fun ph => Res.bind_congr fun pl => Res.bind_congr fun pc => ?_
  unfold trueRange
  cases ph <;> cases pl <;> cases pc <;>
    simp only [Option.map_none, Option.map_some, raise_diff]

theorem atr_raise (c : Ctx (Ex K)) (s : Atr (Ex K)) : Atr.next (c.rescale (raise k) v) s = Atr.next c s := by
  unfold Atr.next
  simp only [tr_raise, rma_rescale]

theorem rsi_raise (c : Ctx (Ex K)) (s : Rsi (Ex K)) (x : Option (Ex K)) :
    Alike (fun q q' => q'.1 = q.1 ∧ q'.2 = { q.2 with prevInputValue := q.2.prevInputValue.map (raise k) }) (s.next c x)
      (Rsi.next (c.rescale p v) { s with prevInputValue := s.prevInputValue.map (raise k) } (x.map (raise k))) := by
  obtain ⟨len, up, down, prev, du, dd⟩ := s
  unfold Rsi.next
  simp only [rma_rescale]
  rcases prev with _ | pv <;> rcases x with _ | x <;> simp only [Option.map_none, Option.map_some, raise_diff] <;>
  · refine Alike.step ?_
    rintro ⟨a, ra⟩
    refine Alike.step ?_
    rintro ⟨b, rb⟩
    cases a <;> cases b <;> exact ⟨rfl, rfl⟩

def rsiL (len : Nat) : Lift p v (Option.map (raise k)) id Rsi.next (Rsi.new len) where
  Rel _ s s' := s' = { s with prevInputValue := s.prevInputValue.map (raise k) }
  follows c s s' x h := by subst h; exact rsi_raise k p v c s x
  init s h := by
    unfold Rsi.new at h
    obtain ⟨_, _, h⟩ := Res.bind_ok h
    obtain ⟨_, _, h⟩ := Res.bind_ok h
    obtain ⟨_, _, h⟩ := Res.bind_ok h
    have := Except.ok.inj h; subst this
    rfl

end
end Pace
