import Verif.Spec.Schedule

/-!
# The same calls made later
-/

namespace Pace
open Spec
variable {α : Type}

theorem Spec.Alike.bind {A B A' B' : Type} {P : A → A' → Prop} {Q : B → B' → Prop} {m : Res A} {m' : Res A'} {f : A → Res B} {f' : A' → Res B'}
    (h : Alike P m m') (hf : ∀ a a', P a a' → Alike Q (f a) (f' a')) : Alike Q (m >>= f) (m' >>= f') := by
  cases m <;> cases m'
  · exact h
  · exact h.elim
  · exact h.elim
  · exact hf _ _ h

theorem Spec.Alike.same {A : Type} (m : Res A) : Alike (fun a b => a = b) m m := by cases m <;> exact rfl

theorem Spec.Alike.of_eq {A : Type} {m m' : Res A} (h : m' = m) : Alike (fun a b => a = b) m m' := by subst h; exact Alike.same _

/-- Both sides do the same thing first. -/
theorem Spec.Alike.step {A B B' : Type} {Q : B → B' → Prop} {m : Res A} {f : A → Res B} {f' : A → Res B'}
    (hf : ∀ a, Alike Q (f a) (f' a)) : Alike Q (m >>= f) (m >>= f') :=
  (Alike.same m).bind fun a _ h => h ▸ hf a

theorem Spec.Alike.eq {A : Type} {m m' : Res A} (h : Alike (fun a b => a = b) m m') : m = m' := by
  cases m <;> cases m'
  · exact congrArg _ h
  · exact h.elim
  · exact h.elim
  · exact congrArg _ h

theorem Spec.Alike.mono {A A' : Type} {P Q : A → A' → Prop} {m : Res A} {m' : Res A'} (h : Alike P m m') (hpq : ∀ a a', P a a' → Q a a') :
    Alike Q m m' := by
  cases m <;> cases m'
  · exact h
  · exact h.elim
  · exact h.elim
  · exact hpq _ _ h

/-- `c'` sees bar `s + i` where `c` sees bar `i` of the data cut at `s`. -/
structure Later (s k : Nat) (c c' : Ctx α) : Prop where
  data : c.data = c'.data.cut s
  index : c'.index = s + c.index
  past : k ≤ c.index

/-- The steps at the two positions keep related states related and return the same thing. -/
def Trails {S I O : Type} (s k : Nat) (Rel : Nat → S → S → Prop) (next : Ctx α → S → I → Res (O × S)) : Prop :=
  ∀ (c c' : Ctx α) (st st' : S) (v : I), Later s k c c' → Rel c.index st st' →
    Alike (fun p p' => p.1 = p'.1 ∧ Rel (c.index + 1) p.2 p'.2) (next c st v) (next c' st' v)

/-- `next` and `new` of a component with look-back `k`: the proof that it may be started later. -/
structure Component {S I O : Type} (k : Nat) (next : Ctx α → S → I → Res (O × S)) (new : Res S) : Type where
  Rel : Nat → Nat → S → S → Prop
  follows : ∀ s, Trails s k (Rel s) next
  init : ∀ s i st, new = .ok st → Rel s i st st

theorem startsAfter {S I O : Type} {k : Nat} {next : Ctx α → S → I → Res (O × S)} {new : Res S} (C : Component k next new) :
    StartsAfter k next new := by
  intro d s N x
  unfold calls
  cases hn : new with
  | error e => rfl
  | ok st0 =>
    have key : ∀ n i st st', C.Rel s (k + i) st st' →
        Alike (fun p p' => p.1 = p'.1) (runFrom (fun i => next ⟨d.cut s, k + i⟩) x i n st) (runFrom (fun i => next ⟨d, s + (k + i)⟩) x i n st') := by
      intro n
      induction n with
      | zero => intro i st st' _; exact rfl
      | succ n ih =>
        intro i st st' h
        simp only [runFrom]
        refine (C.follows s ⟨d.cut s, k + i⟩ ⟨d, s + (k + i)⟩ st st' (x i) ⟨rfl, rfl, Nat.le_add_right _ _⟩ h).bind ?_
        rintro ⟨o, s1⟩ ⟨o', s1'⟩ ⟨h1, h2⟩
        refine (ih (i + 1) s1 s1' h2).bind ?_
        rintro ⟨os, s2⟩ ⟨os', s2'⟩ h3
        have h1 : o = o' := h1
        have h3 : os = os' := h3
        show o :: os = o' :: os'
        rw [h1, h3]
    have h := key N 0 st0 st0 (C.init s _ st0 hn)
    symm
    apply Alike.eq
    simp only [outputs, run, Res.ok_bind]
    refine h.bind ?_
    rintro ⟨os, s2⟩ ⟨os', s2'⟩ h3
    exact h3

namespace Later
variable {s k : Nat} {c c' : Ctx α}

theorem weaken {k' : Nat} (h : Later s k c c') (hk : k' ≤ k) : Later s k' c c' := ⟨h.data, h.index, hk.trans h.past⟩

private theorem index_drop {β : Type} (l : List β) (s i : Nat) : Pace.index (l.drop s) i = Pace.index l (s + i) := by
  simp [Pace.index, List.getElem?_drop]

theorem barOpen (h : Later s k c c') : c.barOpen = c'.barOpen := by
  unfold Ctx.barOpen DataProvider.getOpen; rw [h.data, h.index]; exact index_drop _ _ _
theorem barHigh (h : Later s k c c') : c.barHigh = c'.barHigh := by
  unfold Ctx.barHigh DataProvider.getHigh; rw [h.data, h.index]; exact index_drop _ _ _
theorem barLow (h : Later s k c c') : c.barLow = c'.barLow := by
  unfold Ctx.barLow DataProvider.getLow; rw [h.data, h.index]; exact index_drop _ _ _
theorem barClose (h : Later s k c c') : c.barClose = c'.barClose := by
  unfold Ctx.barClose DataProvider.getClose; rw [h.data, h.index]; exact index_drop _ _ _
theorem barVolume (h : Later s k c c') : c.barVolume = c'.barVolume := by
  unfold Ctx.barVolume DataProvider.getVolume; rw [h.data, h.index]; exact index_drop _ _ _

theorem high (h : Later s k c c') {n : Nat} (hn : n ≤ k) : c.high n = c'.high n := by
  have h1 := h.past; have h2 := h.index
  unfold Ctx.high DataProvider.getHigh
  rw [if_neg (by omega), if_neg (by omega), h.data, h.index, Nat.add_sub_assoc (by omega)]
  exact index_drop _ _ _
theorem low (h : Later s k c c') {n : Nat} (hn : n ≤ k) : c.low n = c'.low n := by
  have h1 := h.past; have h2 := h.index
  unfold Ctx.low DataProvider.getLow
  rw [if_neg (by omega), if_neg (by omega), h.data, h.index, Nat.add_sub_assoc (by omega)]
  exact index_drop _ _ _
theorem close (h : Later s k c c') {n : Nat} (hn : n ≤ k) : c.close n = c'.close n := by
  have h1 := h.past; have h2 := h.index
  unfold Ctx.close DataProvider.getClose
  rw [if_neg (by omega), if_neg (by omega), h.data, h.index, Nat.add_sub_assoc (by omega)]
  exact index_drop _ _ _

theorem atLength (h : Later s k c c') {n : Nat} (hn : n ≤ k + 1) : c.atLength n = c'.atLength n := by
  have h1 := h.past; have h2 := h.index
  unfold Ctx.atLength
  rcases Nat.eq_zero_or_pos n with rfl | hp
  · simp [usub]
  · rw [usub_of_le hp]
    simp only [Res.ok_bind, Res.pure_eq]
    rw [decide_eq_true (by omega), decide_eq_true (by omega)]

private theorem rangeStart (h : Later s k c c') {n : Nat} (hn : n ≤ k + 1) :
    (n = 0 ∧ c.rangeStart n = .error .underflow ∧ c'.rangeStart n = .error .underflow) ∨
    (1 ≤ n ∧ c.rangeStart n = .ok (c.index - (n - 1)) ∧ c'.rangeStart n = .ok (s + (c.index - (n - 1)))) := by
  have h1 := h.past; have h2 := h.index
  unfold Ctx.rangeStart
  rcases Nat.eq_zero_or_pos n with rfl | hp
  · left; exact ⟨rfl, rfl, rfl⟩
  · right
    refine ⟨hp, ?_, ?_⟩
    · rw [usub_of_le hp]; exact usub_of_le (by omega)
    · rw [usub_of_le hp]; refine (usub_of_le (by omega)).trans ?_; congr 1; omega

private theorem slice_drop {β : Type} (l : List β) (s a b : Nat) (hb : 1 ≤ b) : slice (l.drop s) a b = slice l (s + a) (s + b) := by
  unfold slice
  have hl : (l.drop s).length = l.length - s := List.length_drop
  by_cases h : a ≤ b ∧ b ≤ l.length - s
  · rw [if_pos (by rw [hl]; exact h), if_pos (by omega)]
    congr 1
    rw [List.drop_take, List.drop_take, List.drop_drop]
    congr 1; omega
  · rw [if_neg (by rw [hl]; exact h), if_neg (by omega)]

theorem highs (h : Later s k c c') {n : Nat} (hn : n ≤ k + 1) : c.highs n = c'.highs n := by
  unfold Ctx.highs DataProvider.getHighForRange
  rcases h.rangeStart hn with ⟨_, e, e'⟩ | ⟨_, e, e'⟩
  · rw [e, e']; rfl
  · rw [e, e']; simp only [Res.ok_bind]; rw [h.data, h.index]; exact slice_drop _ _ _ _ (by omega)
theorem lows (h : Later s k c c') {n : Nat} (hn : n ≤ k + 1) : c.lows n = c'.lows n := by
  unfold Ctx.lows DataProvider.getLowForRange
  rcases h.rangeStart hn with ⟨_, e, e'⟩ | ⟨_, e, e'⟩
  · rw [e, e']; rfl
  · rw [e, e']; simp only [Res.ok_bind]; rw [h.data, h.index]; exact slice_drop _ _ _ _ (by omega)

theorem src [F64 α] (h : Later s k c c') (kind : SrcKind) : Src.next c kind = Src.next c' kind := by
  cases kind <;> simp only [Src.next, h.barOpen, h.barHigh, h.barLow, h.barClose, h.barVolume]

end Later

theorem Trails.weaken {S I O : Type} {s k k' : Nat} {Rel : Nat → S → S → Prop} {next : Ctx α → S → I → Res (O × S)}
    (h : Trails s k Rel next) (hk : k ≤ k') : Trails s k' Rel next :=
  fun c c' st st' v hl => h c c' st st' v (hl.weaken hk)

/-- A component that never looks at the context. -/
def Component.ofAnyCtx {S I O : Type} (k : Nat) (next : S → I → Res (O × S)) (new : Res S) : Component (α := α) k (anyCtx next) new where
  Rel _ _ st st' := st = st'
  follows s c c' st st' v _ h := by
    subst h
    exact (Alike.same _).mono fun _ _ h => by subst h; exact ⟨rfl, rfl⟩
  init _ _ _ _ := rfl

/-- A component without state. -/
def Component.ofNoState {O : Type} (k : Nat) (next : Ctx α → Res O) (h : ∀ s c c', Later s k c c' → next c = next c') :
    Component k (noState next) (.ok ()) where
  Rel _ _ _ _ := True
  follows s c c' st st' v hl _ := by
    unfold noState
    rw [h s c c' hl]
    exact Alike.step fun a => ⟨rfl, trivial⟩
  init _ _ _ _ := trivial

def Component.weaken {S I O : Type} {k k' : Nat} {next : Ctx α → S → I → Res (O × S)} {new : Res S} (C : Component k next new) (hk : k ≤ k') :
    Component k' next new where
  Rel := C.Rel
  follows s := (C.follows s).weaken hk
  init := C.init

/-- The component fed by the project's own source. -/
def Component.withSrc [F64 α] {S O : Type} {k : Nat} {next : Ctx α → S → Option α → Res (O × S)} {new : Res S} (C : Component k next new)
    (kind : SrcKind) : Component k (barsOnly (Pace.withSrc kind next)) new where
  Rel := C.Rel
  follows s c c' st st' v hl h := by
    unfold barsOnly Pace.withSrc
    rw [hl.src kind]
    exact Alike.step fun a => C.follows s c c' st st' a hl h
  init := C.init

end Pace
