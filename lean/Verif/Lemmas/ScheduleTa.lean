import Verif.Lemmas.Schedule
import Verif.Lemmas.Reflect

/-!
# The same calls made later: the building blocks
-/

namespace Pace
open Spec
variable {α : Type} [F64 α]

/-! ## Window validator -/

/-- The same validator, `s` bars later. -/
structure ValidatorLater (s : Nat) (v v' : WindowValidator) : Prop where
  length : v'.length = v.length
  wasNone : v'.wasNone = v.wasNone
  last : v.wasNone = true → v'.lastNoneIndex = s + v.lastNoneIndex

theorem validator_later {s k : Nat} {c c' : Ctx α} {v v' : WindowValidator} (hl : Later s k c c') (h : ValidatorLater s v v') (o : Option α) :
    Alike (fun p p' => p.1 = p'.1 ∧ ValidatorLater s p.2 p'.2) (v.next c o) (v'.next c' o) := by
  unfold WindowValidator.next
  cases o with
  | none => exact ⟨rfl, h.length, rfl, fun _ => hl.index⟩
  | some o =>
    simp only [Option.isNone_some, Bool.false_eq_true, if_false]
    cases hw : v.wasNone with
    | false =>
      have hw' := h.wasNone.trans hw
      rw [hw']
      exact ⟨rfl, h⟩
    | true =>
      have hw' := h.wasNone.trans hw
      rw [hw']
      simp only [Bool.not_true, Bool.false_eq_true, if_false]
      have e : usub c'.index v'.lastNoneIndex = usub c.index v.lastNoneIndex := by
        rw [hl.index, h.last hw]; unfold usub; simp [Nat.add_sub_add_left]
      rw [e, h.length]
      exact Alike.step fun d => ⟨rfl, h⟩

/-! ## Simple average -/

/-- The same average, `s` bars later. -/
structure SmaLater (s : Nat) (a a' : Sma α) : Prop where
  length : a'.length = a.length
  lengthF64 : a'.lengthF64 = a.lengthF64
  sum : a'.sum = a.sum
  cache : a'.inputCache = a.inputCache
  validator : ValidatorLater s a.batchValidator a'.batchValidator
  cacheLength : a.inputCache.length = a.length

theorem sma_follows (s : Nat) : Trails s 0 (fun _ => SmaLater s) (Sma.next (α := α)) := by
  intro c c' a a' o hl h
  unfold Sma.next
  rw [h.length]
  by_cases h1 : a.length = 1
  · rw [if_pos h1, if_pos h1]; exact ⟨rfl, h⟩
  · rw [if_neg h1, if_neg h1]
    dsimp only
    rw [h.cache, h.lengthF64, h.sum]
    refine (validator_later hl h.validator o).bind ?_
    rintro ⟨b, w⟩ ⟨b', w'⟩ ⟨hb, hw⟩
    have hb : b = b' := hb
    subst hb
    refine Alike.step fun f => ?_
    exact ⟨rfl, rfl, rfl, rfl, rfl, hw, h.cacheLength⟩

theorem sma_new {len : Nat} {a : Sma α} (h : Sma.new len = .ok a) :
    1 ≤ len ∧ a = ⟨len, lit (len : ℚ), lit 0, WindowCache.new len, ⟨len, 0, false⟩⟩ := by
  by_cases hl : 1 ≤ len
  · refine ⟨hl, ?_⟩
    have : Sma.new (α := α) len = .ok ⟨len, lit (len : ℚ), lit 0, WindowCache.new len, ⟨len, 0, false⟩⟩ := by
      simp [Sma.new, WindowValidator.new, hl]
    rw [this] at h
    exact (Except.ok.inj h).symm
  · simp [Sma.new, hl] at h

def smaC (len : Nat) : Component 0 (Sma.next (α := α)) (Sma.new len) where
  Rel s _ := SmaLater s
  follows := sma_follows
  init s i st h := by
    obtain ⟨_, rfl⟩ := sma_new h
    exact ⟨rfl, rfl, rfl, rfl, ⟨rfl, rfl, by simp⟩, rfl⟩

/-! ## Sum -/

structure SumLater (s : Nat) (a a' : Sum α) : Prop where
  length : a'.length = a.length
  sum : a'.sum = a.sum
  cache : a'.inputCache = a.inputCache
  validator : ValidatorLater s a.batchValidator a'.batchValidator

def sumC (len : Nat) : Component 0 (Sum.next (α := α)) (Sum.new len) where
  Rel s _ := SumLater s
  follows s := by
    intro c c' a a' o hl h
    unfold Sum.next
    rw [h.cache, h.sum]
    refine Alike.step fun f => ?_
    refine (validator_later hl h.validator o).bind ?_
    rintro ⟨b, w⟩ ⟨b', w'⟩ ⟨hb, hw⟩
    have hb : b = b' := hb
    subst hb
    exact ⟨rfl, h.length, rfl, rfl, hw⟩
  init s i st h := by
    by_cases hl : 1 ≤ len
    · have : Sum.new (α := α) len = .ok ⟨len, lit 0, WindowCache.new len, ⟨len, 0, false⟩⟩ := by
        simp [Sum.new, WindowValidator.new, hl]
      rw [this] at h
      have := Except.ok.inj h
      subst this
      exact ⟨rfl, rfl, rfl, ⟨rfl, rfl, by simp⟩⟩
    · simp [Sum.new, hl] at h

/-! ## Exponential average -/

/-- The same exponential average, `s` bars later, after at most `i` calls. -/
structure EmaLater (s i : Nat) (a a' : Ema α) : Prop where
  alpha : a'.alpha = a.alpha
  length : a'.length = a.length
  pos : 1 ≤ a.length
  prev : a'.prevValue = a.prevValue
  sma : SmaLater s a.sma a'.sma
  smaLength : a.sma.length = a.length
  early : a.sma.inputCache.values.length ≤ i
  seeded : a.prevValue.isSome → a.length ≤ i

theorem sma_next_grows {c : Ctx α} {a b : Sma α} {o r : Option α} (h : a.next c o = .ok (r, b)) :
    b.length = a.length ∧ b.inputCache.values.length ≤ a.inputCache.values.length + 1 ∧
      (a.length ≠ 1 → a.inputCache.length = a.length → r.isSome → a.length ≤ a.inputCache.values.length + 1) := by
  unfold Sma.next at h
  by_cases h1 : a.length = 1
  · rw [if_pos h1] at h
    have := Except.ok.inj h
    have h2 := congrArg Prod.snd this
    simp only at h2
    subst h2
    exact ⟨rfl, by omega, fun h => absurd h1 h⟩
  · rw [if_neg h1] at h
    dsimp only at h
    obtain ⟨⟨b1, w⟩, -, h⟩ := Res.bind_ok h
    obtain ⟨f, -, h⟩ := Res.bind_ok h
    have := Except.ok.inj h
    have h2 := congrArg Prod.snd this
    have h3 := congrArg Prod.fst this
    simp only at h2 h3
    subst h2
    refine ⟨rfl, by simp [WindowCache.next], ?_⟩
    intro _ hc hr
    rw [← h3] at hr
    by_contra hcon
    have : (a.inputCache.next o).isFilled = false := by
      unfold WindowCache.isFilled WindowCache.next
      simp only [List.length_append, List.length_cons, List.length_nil, decide_eq_false_iff_not]
      omega
    rw [this] at hr
    simp at hr

theorem ema_follows (s : Nat) : Trails s 0 (EmaLater s) (Ema.next (α := α)) := by
  intro c c' a a' o hl h
  obtain ⟨al', len', sma', prev'⟩ := a'
  obtain rfl : al' = a.alpha := h.alpha
  obtain rfl : len' = a.length := h.length
  obtain rfl : prev' = a.prevValue := h.prev
  unfold Ema.next
  dsimp only
  by_cases h1 : a.length = 1
  · rw [if_pos h1, if_pos h1]
    exact ⟨rfl, h.alpha, h.length, h.pos, h.prev, h.sma, h.smaLength, h.early.trans (Nat.le_succ _), fun hs => (h.seeded hs).trans (Nat.le_succ _)⟩
  · rw [if_neg h1, if_neg h1]
    have hp := h.pos
    rw [usub_of_le hp]
    simp only [Res.ok_bind]
    have at1 (n : Nat) (d : DataProvider α) : Ctx.atLength ⟨d, n⟩ (a.length - 1) = .ok (decide (a.length - 1 - 1 ≤ n)) := by
      unfold Ctx.atLength; rw [usub_of_le (by omega)]; rfl
    rw [show c.atLength (a.length - 1) = _ from at1 c.index c.data, show c'.atLength (a.length - 1) = _ from at1 c'.index c'.data]
    simp only [Res.ok_bind]
    have hidx := hl.index
    -- feeding the inner average, whatever the branch
    have feed := sma_follows s c c' a.sma sma' o hl h.sma
    have hlen1 := h.smaLength
    rcases hprev : a.prevValue with _ | prev
    · -- not seeded yet
      have key : Alike (fun p p' => p.1 = p'.1 ∧ EmaLater s (c.index + 1) p.2 p'.2)
          (do let p ← a.sma.next c o; (.ok (p.1, { a with sma := p.2, prevValue := p.1 }) : Res (Option α × Ema α)))
          (do let p ← sma'.next c' o; .ok (p.1, ⟨a.alpha, a.length, p.2, p.1⟩)) := by
        cases e : a.sma.next c o with
        | error _ =>
          cases e' : sma'.next c' o with
          | error _ => rw [e, e'] at feed; exact feed
          | ok _ => rw [e, e'] at feed; exact feed.elim
        | ok p =>
          cases e' : sma'.next c' o with
          | error _ => rw [e, e'] at feed; exact feed.elim
          | ok p' =>
            rw [e, e'] at feed
            obtain ⟨f1, f2⟩ : p.1 = p'.1 ∧ SmaLater s p.2 p'.2 := feed
            obtain ⟨g1, g2, g3⟩ := sma_next_grows (r := p.1) (b := p.2) e
            have he := h.early
            refine ⟨f1, rfl, rfl, h.pos, f1.symm, f2, g1.trans hlen1, (by show p.2.inputCache.values.length ≤ _; omega), ?_⟩
            intro hs
            have := g3 (by rw [hlen1]; exact h1) (by rw [h.sma.cacheLength]) hs
            show a.length ≤ c.index + 1
            omega
      -- below the look-back the inner average has no value
      have quiet (n : Nat) (hn : ¬ (a.length - 1 - 1 ≤ n)) (hci : c.index ≤ n) {r : Option α} {b : Sma α} (e : a.sma.next c o = .ok (r, b)) :
          r = none := by
        obtain ⟨g1, g2, g3⟩ := sma_next_grows e
        rcases r with _ | r
        · rfl
        · have := g3 (by rw [hlen1]; exact h1) (by rw [h.sma.cacheLength]) rfl
          have he := h.early
          omega
      by_cases hc : a.length - 1 - 1 ≤ c.index
      · have hc' : a.length - 1 - 1 ≤ c'.index := by omega
        rw [decide_eq_true hc, decide_eq_true hc']
        simp only [Bool.not_true, Bool.false_eq_true, if_false]
        exact key
      · rw [decide_eq_false hc]
        simp only [Bool.not_false, if_true]
        have left : (do let p ← a.sma.next c o; (.ok (none, { a with sma := p.2 }) : Res (Option α × Ema α))) =
            (do let p ← a.sma.next c o; .ok (p.1, { a with sma := p.2, prevValue := p.1 })) := by
          cases e : a.sma.next c o with
          | error _ => rfl
          | ok p =>
            have hq := quiet c.index hc le_rfl (r := p.1) (b := p.2) e
            simp only [Res.ok_bind, hq]
            rw [← hprev]
        have right : (do let p ← sma'.next c' o; (.ok (none, ⟨a.alpha, a.length, p.2, a.prevValue⟩) : Res (Option α × Ema α))) =
            (do let p ← sma'.next c' o; .ok (p.1, ⟨a.alpha, a.length, p.2, p.1⟩)) := by
          cases e' : sma'.next c' o with
          | error _ => rfl
          | ok p' =>
            cases e : a.sma.next c o with
            | error _ => rw [e, e'] at feed; exact feed.elim
            | ok p =>
              rw [e, e'] at feed
              obtain ⟨f1, f2⟩ : p.1 = p'.1 ∧ SmaLater s p.2 p'.2 := feed
              have hq := quiet c.index hc le_rfl (r := p.1) (b := p.2) e
              have hq' : p'.1 = none := f1.symm.trans hq
              simp only [Res.ok_bind, hq']
              rw [hprev]
        by_cases hc' : a.length - 1 - 1 ≤ c'.index
        · rw [decide_eq_true hc']
          simp only [Bool.not_true, Bool.false_eq_true, if_false]
          refine Eq.mp ?_ key
          rw [← left, hprev]
          rfl
        · rw [decide_eq_false hc']
          simp only [Bool.not_false, if_true]
          refine Eq.mp ?_ key
          rw [← left, ← right, hprev]
          rfl
    · have hs := h.seeded (by rw [hprev]; rfl)
      rw [decide_eq_true (show a.length - 1 - 1 ≤ c.index by omega), decide_eq_true (show a.length - 1 - 1 ≤ c'.index by omega)]
      simp only [Bool.not_true, Bool.false_eq_true, if_false]
      refine Alike.step fun v => ?_
      exact ⟨rfl, rfl, rfl, h.pos, rfl, h.sma, h.smaLength, h.early.trans (Nat.le_succ _), fun _ => hs.trans (Nat.le_succ _)⟩

theorem ema_start {len : Nat} {al : α} {st : Ema α} (h : Ema.withAlpha len al = .ok st) (s i : Nat) : EmaLater s i st st := by
  unfold Ema.withAlpha at h
  obtain ⟨_, h0, h⟩ := Res.bind_ok h
  obtain ⟨a, ha, h⟩ := Res.bind_ok h
  have := Except.ok.inj h
  subst this
  obtain ⟨hl, rfl⟩ := sma_new ha
  exact ⟨rfl, rfl, hl, rfl, ⟨rfl, rfl, rfl, rfl, ⟨rfl, rfl, by simp⟩, rfl⟩, rfl, by simp [WindowCache.new], by simp⟩

def emaC (len : Nat) : Component 0 (Ema.next (α := α)) (Ema.new len) where
  Rel := EmaLater
  follows := ema_follows
  init s i _ h := ema_start h s i

/-! ## Running average -/

structure RmaLater (s i : Nat) (a a' : Rma α) : Prop where
  length : a'.length = a.length
  ema : EmaLater s i a.ema a'.ema

theorem rma_follows (s : Nat) : Trails s 0 (RmaLater s) (Rma.next (α := α)) := by
  intro c c' a a' o hl h
  unfold Rma.next
  refine (ema_follows s c c' _ _ o hl h.ema).bind ?_
  rintro ⟨r, b⟩ ⟨r', b'⟩ ⟨h1, h2⟩
  exact ⟨h1, h.length, h2⟩

theorem rma_start {len : Nat} {st : Rma α} (h : Rma.new len = .ok st) (s i : Nat) : RmaLater s i st st := by
  unfold Rma.new at h
  obtain ⟨_, h0, h⟩ := Res.bind_ok h
  obtain ⟨a, ha, h⟩ := Res.bind_ok h
  have := Except.ok.inj h
  subst this
  exact ⟨rfl, ema_start ha s i⟩

def rmaC (len : Nat) : Component 0 (Rma.next (α := α)) (Rma.new len) where
  Rel := RmaLater
  follows := rma_follows
  init s i _ h := rma_start h s i

/-! ## Deviations -/

structure DevLater (s : Nat) (a a' : Dev α) : Prop where
  length : a'.length = a.length
  cache : a'.inputCache = a.inputCache
  sma : SmaLater s a.sma a'.sma

def devC (len : Nat) : Component 0 (Dev.next (α := α)) (Dev.new len) where
  Rel s _ := DevLater s
  follows s := by
    intro c c' a a' o hl h
    unfold Dev.next
    rw [h.length]
    by_cases h1 : a.length = 1
    · rw [if_pos h1, if_pos h1]; exact ⟨rfl, h⟩
    · rw [if_neg h1, if_neg h1]
      dsimp only
      rw [h.cache]
      refine (sma_follows s c c' _ _ o hl h.sma).bind ?_
      rintro ⟨m, b⟩ ⟨m', b'⟩ ⟨hm, hb⟩
      have hm : m = m' := hm
      subst hm
      rcases m with _ | m
      · exact ⟨rfl, rfl, rfl, hb⟩
      · dsimp only
        cases (a.inputCache.next o).isFilled
        · exact ⟨rfl, rfl, rfl, hb⟩
        · simp only [Bool.not_true, Bool.false_eq_true, if_false]
          exact Alike.step fun vs => ⟨rfl, rfl, rfl, hb⟩
  init s i st h := by
    unfold Dev.new at h
    obtain ⟨_, h0, h⟩ := Res.bind_ok h
    obtain ⟨a, ha, h⟩ := Res.bind_ok h
    have := Except.ok.inj h
    subst this
    exact ⟨rfl, rfl, (smaC len).init s i _ ha⟩

structure StdevLater (s : Nat) (a a' : Stdev α) : Prop where
  length : a'.length = a.length
  isBiased : a'.isBiased = a.isBiased
  cache : a'.inputCache = a.inputCache
  sma : SmaLater s a.sma a'.sma

def stdevC (len : Nat) (biased : Bool) : Component 0 (Stdev.next (α := α)) (Stdev.new len biased) where
  Rel s _ := StdevLater s
  follows s := by
    intro c c' a a' o hl h
    unfold Stdev.next
    rw [h.length, h.isBiased]
    by_cases h1 : a.length = 1
    · rw [if_pos h1, if_pos h1]
      cases a.isBiased <;> exact ⟨rfl, h⟩
    · rw [if_neg h1, if_neg h1]
      dsimp only
      rw [h.cache]
      refine (sma_follows s c c' _ _ o hl h.sma).bind ?_
      rintro ⟨m, b⟩ ⟨m', b'⟩ ⟨hm, hb⟩
      have hm : m = m' := hm
      subst hm
      rcases m with _ | m
      · exact ⟨rfl, rfl, rfl, rfl, hb⟩
      · dsimp only
        refine Alike.step fun vs => ?_
        by_cases hbi : a.isBiased = true
        · rw [if_pos hbi, if_pos hbi]; exact ⟨rfl, rfl, rfl, rfl, hb⟩
        · rw [if_neg hbi, if_neg hbi]; exact Alike.step fun l => ⟨rfl, rfl, rfl, rfl, hb⟩
  init s i st h := by
    unfold Stdev.new at h
    obtain ⟨_, h0, h⟩ := Res.bind_ok h
    obtain ⟨a, ha, h⟩ := Res.bind_ok h
    have := Except.ok.inj h
    subst this
    exact ⟨rfl, rfl, rfl, (smaC len).init s i _ ha⟩

/-! ## Relative strength index -/

structure RsiLater (s i : Nat) (a a' : Rsi α) : Prop where
  length : a'.length = a.length
  up : RmaLater s i a.upRma a'.upRma
  down : RmaLater s i a.downRma a'.downRma
  prev : a'.prevInputValue = a.prevInputValue
  dataUp : a'.dataUp = a.dataUp
  dataDown : a'.dataDown = a.dataDown

def rsiC (len : Nat) : Component 0 (Rsi.next (α := α)) (Rsi.new len) where
  Rel := RsiLater
  follows s := by
    intro c c' a a' o hl h
    unfold Rsi.next
    rw [h.prev]
    dsimp only
    refine (rma_follows s c c' _ _ _ hl h.up).bind ?_
    rintro ⟨u, bu⟩ ⟨u', bu'⟩ ⟨hu, hbu⟩
    have hu : u = u' := hu
    subst hu
    refine (rma_follows s c c' _ _ _ hl h.down).bind ?_
    rintro ⟨w, bw⟩ ⟨w', bw'⟩ ⟨hw, hbw⟩
    have hw : w = w' := hw
    subst hw
    rcases u with _ | u
    · exact ⟨rfl, h.length, hbu, hbw, rfl, h.dataUp, h.dataDown⟩
    · rcases w with _ | w
      · exact ⟨rfl, h.length, hbu, hbw, rfl, h.dataUp, h.dataDown⟩
      · exact ⟨rfl, h.length, hbu, hbw, rfl, rfl, rfl⟩
  init s i st h := by
    unfold Rsi.new at h
    obtain ⟨_, h0, h⟩ := Res.bind_ok h
    obtain ⟨a, ha, h⟩ := Res.bind_ok h
    obtain ⟨b, hb, h⟩ := Res.bind_ok h
    have := Except.ok.inj h
    subst this
    exact ⟨rfl, rma_start ha s i, rma_start hb s i, rfl, rfl, rfl⟩

/-! ## Components that warm up by the bar number -/

/-- States that do not depend on the bar: the same on both sides. -/
def Component.plain {S I O : Type} {k : Nat} {next : Ctx α → S → I → Res (O × S)} {new : Res S} (Ok : S → Prop)
    (h0 : ∀ st, new = .ok st → Ok st) (hk : ∀ s c c' st v, Later s k c c' → Ok st → next c st v = next c' st v)
    (h1 : ∀ c st v p, Ok st → next c st v = .ok p → Ok p.2) : Component k next new where
  Rel _ _ st st' := st = st' ∧ Ok st
  follows s c c' st st' v hl h := by
    obtain ⟨rfl, ho⟩ := h
    rw [← hk s c c' st v hl ho]
    cases e : next c st v with
    | error _ => rfl
    | ok p => exact ⟨rfl, rfl, h1 c st v p ho e⟩
  init s i st h := ⟨rfl, h0 st h⟩

def highestC (len : Nat) : Component (len - 1) (Highest.next (α := α)) (Highest.new len) :=
  .plain (fun st => st.length = len)
    (fun st h => by
      unfold Highest.new at h
      obtain ⟨_, h0, h⟩ := Res.bind_ok h
      have := Except.ok.inj h
      subst this; rfl)
    (fun s c c' st v hl ho => by
      unfold Highest.next
      dsimp only
      rw [hl.atLength (n := st.length) (by omega)])
    (fun c st v p ho h => by
      unfold Highest.next at h
      dsimp only at h
      obtain ⟨b, hb, h⟩ := Res.bind_ok h
      cases b with
      | false => have := Except.ok.inj h; subst this; exact ho
      | true =>
        simp only [Bool.not_true, Bool.false_eq_true, if_false] at h
        obtain ⟨o, _, h⟩ := Res.bind_ok h
        obtain ⟨o, _, h⟩ := Res.bind_ok h
        have := Except.ok.inj h
        subst this; exact ho)

def lowestC (len : Nat) : Component (len - 1) (Lowest.next (α := α)) (Lowest.new len) :=
  .plain (fun st => st.length = len)
    (fun st h => by
      unfold Lowest.new at h
      obtain ⟨_, h0, h⟩ := Res.bind_ok h
      have := Except.ok.inj h
      subst this; rfl)
    (fun s c c' st v hl ho => by
      unfold Lowest.next
      dsimp only
      rw [hl.atLength (n := st.length) (by omega)])
    (fun c st v p ho h => by
      unfold Lowest.next at h
      dsimp only at h
      obtain ⟨b, hb, h⟩ := Res.bind_ok h
      cases b with
      | false => have := Except.ok.inj h; subst this; exact ho
      | true =>
        simp only [Bool.not_true, Bool.false_eq_true, if_false] at h
        obtain ⟨o, _, h⟩ := Res.bind_ok h
        obtain ⟨o, _, h⟩ := Res.bind_ok h
        have := Except.ok.inj h
        subst this; exact ho)

def prankC (len : Nat) : Component len (Prank.next (α := α)) (Prank.new len) :=
  .plain (fun st => st.length = len)
    (fun st h => by
      unfold Prank.new at h
      obtain ⟨_, h0, h⟩ := Res.bind_ok h
      have := Except.ok.inj h
      subst this; rfl)
    (fun s c c' st v hl ho => by
      unfold Prank.next
      dsimp only
      rw [hl.atLength (n := st.length + 1) (by omega)])
    (fun c st v p ho h => by
      unfold Prank.next at h
      dsimp only at h
      obtain ⟨b, hb, h⟩ := Res.bind_ok h
      by_cases hv : (v.isNone || !b) = true
      · rw [if_pos hv] at h; have := Except.ok.inj h; subst this; exact ho
      · rw [if_neg hv] at h
        obtain ⟨o, _, h⟩ := Res.bind_ok h
        obtain ⟨o, _, h⟩ := Res.bind_ok h
        obtain ⟨o, _, h⟩ := Res.bind_ok h
        obtain ⟨o, _, h⟩ := Res.bind_ok h
        have := Except.ok.inj h
        subst this; exact ho)

def stochC (len : Nat) : Component (len - 1) (Stoch.next (α := α)) (Stoch.new len) :=
  .plain (fun st => st.length = len)
    (fun st h => by
      unfold Stoch.new at h
      obtain ⟨_, h0, h⟩ := Res.bind_ok h
      have := Except.ok.inj h
      subst this; rfl)
    (fun s c c' st v hl ho => by
      unfold Stoch.next
      dsimp only
      rw [hl.atLength (n := st.length) (by omega)])
    (fun c st v p ho h => by
      unfold Stoch.next at h
      dsimp only at h
      obtain ⟨b, hb, h⟩ := Res.bind_ok h
      cases b with
      | false => have := Except.ok.inj h; subst this; exact ho
      | true =>
        simp only [Bool.not_true, Bool.false_eq_true, if_false] at h
        obtain ⟨o, _, h⟩ := Res.bind_ok h
        obtain ⟨o, _, h⟩ := Res.bind_ok h
        obtain ⟨o, _, h⟩ := Res.bind_ok h
        have := Except.ok.inj h
        subst this; exact ho)

structure WmaLater (s len : Nat) (a a' : Wma α) : Prop where
  length : a'.length = a.length
  isLen : a.length = len
  cache : a'.inputCache = a.inputCache
  validator : ValidatorLater s a.batchValidator a'.batchValidator

def wmaC (len : Nat) : Component (len - 1) (Wma.next (α := α)) (Wma.new len) where
  Rel s _ := WmaLater s len
  follows s := by
    intro c c' a a' o hl h
    unfold Wma.next
    dsimp only
    rw [h.cache]
    refine (validator_later hl h.validator o).bind ?_
    rintro ⟨b, w⟩ ⟨b', w'⟩ ⟨hb, hw⟩
    have hb : b = b' := hb
    subst hb
    dsimp only
    have hi := h.isLen
    rw [h.length, ← hl.atLength (n := a.length) (by omega)]
    refine Alike.step fun t => ?_
    by_cases ht : (!t || !b) = true
    · rw [if_pos ht, if_pos ht]; exact ⟨rfl, rfl, hi, rfl, hw⟩
    · rw [if_neg ht, if_neg ht]
      refine Alike.step fun vs => ?_
      refine Alike.step fun p => ?_
      exact ⟨rfl, rfl, hi, rfl, hw⟩
  init s i st h := by
    unfold Wma.new at h
    obtain ⟨_, h0, h⟩ := Res.bind_ok h
    obtain ⟨v, hv, h⟩ := Res.bind_ok h
    have := Except.ok.inj h
    subst this
    unfold WindowValidator.new at hv
    obtain ⟨_, h0, hv⟩ := Res.bind_ok hv
    have := Except.ok.inj hv
    subst this
    exact ⟨rfl, rfl, rfl, ⟨rfl, rfl, by simp⟩⟩

structure SwmaLater (s : Nat) (a a' : Swma α) : Prop where
  length : a'.length = a.length
  isLen : a.length = 4
  cache : a'.inputCache = a.inputCache
  validator : ValidatorLater s a.batchValidator a'.batchValidator

def swmaC : Component 3 (Swma.next (α := α)) Swma.new where
  Rel s _ := SwmaLater s
  follows s := by
    intro c c' a a' o hl h
    unfold Swma.next
    dsimp only
    rw [h.cache]
    refine (validator_later hl h.validator o).bind ?_
    rintro ⟨b, w⟩ ⟨b', w'⟩ ⟨hb, hw⟩
    have hb : b = b' := hb
    subst hb
    dsimp only
    have hi := h.isLen
    rw [h.length, ← hl.atLength (n := a.length) (by omega)]
    refine Alike.step fun t => ?_
    by_cases ht : (!t || !b) = true
    · rw [if_pos ht, if_pos ht]; exact ⟨rfl, rfl, hi, rfl, hw⟩
    · rw [if_neg ht, if_neg ht]
      refine Alike.step fun vs => ?_
      refine Alike.step fun p => ?_
      exact ⟨rfl, rfl, hi, rfl, hw⟩
  init s i st h := by
    unfold Swma.new at h
    obtain ⟨v, hv, h⟩ := Res.bind_ok h
    have := Except.ok.inj h
    subst this
    unfold WindowValidator.new at hv
    obtain ⟨_, h0, hv⟩ := Res.bind_ok hv
    have := Except.ok.inj hv
    subst this
    exact ⟨rfl, rfl, rfl, ⟨rfl, rfl, by simp⟩⟩

/-! ## Components that read the bars -/

theorem tr_later {s k : Nat} {c c' : Ctx α} (hl : Later s k c c') (hk : 1 ≤ k) (na : Bool) : Tr.next c na = Tr.next c' na := by
  unfold Tr.next
  rw [hl.barHigh, hl.barLow, hl.high hk, hl.low hk, hl.close hk]

structure AtrLater (s i : Nat) (a a' : Atr α) : Prop where
  length : a'.length = a.length
  rma : RmaLater s i a.rma a'.rma

def atrC (len : Nat) : Component 1 (barsOnly (Atr.next (α := α))) (Atr.new len) where
  Rel := AtrLater
  follows s := by
    intro c c' a a' o hl h
    unfold barsOnly Atr.next
    rw [tr_later hl le_rfl]
    refine Alike.step fun t => ?_
    refine (rma_follows s c c' _ _ t (hl.weaken (Nat.zero_le _)) h.rma).bind ?_
    rintro ⟨r, b⟩ ⟨r', b'⟩ ⟨h1, h2⟩
    exact ⟨h1, h.length, h2⟩
  init s i st h := by
    unfold Atr.new at h
    obtain ⟨_, h0, h⟩ := Res.bind_ok h
    obtain ⟨a, ha, h⟩ := Res.bind_ok h
    have := Except.ok.inj h
    subst this
    exact ⟨rfl, rma_start ha s i⟩

theorem highestBars_later {s k : Nat} {c c' : Ctx α} (hl : Later s k c c') (b : HighestBars) (hk : b.length ≤ k + 1) :
    b.next c = b.next c' := by
  unfold HighestBars.next
  rw [hl.atLength hk, hl.highs hk]
theorem lowestBars_later {s k : Nat} {c c' : Ctx α} (hl : Later s k c c') (b : LowestBars) (hk : b.length ≤ k + 1) :
    b.next c = b.next c' := by
  unfold LowestBars.next
  rw [hl.atLength hk, hl.lows hk]

def highestBarsC (len : Nat) : Component (α := α) (len - 1) (barsOnly HighestBars.next) (HighestBars.new len) :=
  .plain (fun st => st.length = len)
    (fun st h => by
      unfold HighestBars.new at h
      obtain ⟨_, h0, h⟩ := Res.bind_ok h
      have := Except.ok.inj h
      subst this; rfl)
    (fun s c c' st v hl ho => highestBars_later hl st (by omega))
    (fun c st v p ho h => by
      unfold barsOnly HighestBars.next at h
      obtain ⟨b, hb, h⟩ := Res.bind_ok h
      cases b with
      | false => have := Except.ok.inj h; subst this; exact ho
      | true =>
        simp only [Bool.not_true, Bool.false_eq_true, if_false] at h
        obtain ⟨o, _, h⟩ := Res.bind_ok h
        obtain ⟨o, _, h⟩ := Res.bind_ok h
        have := Except.ok.inj h
        subst this; exact ho)

def lowestBarsC (len : Nat) : Component (α := α) (len - 1) (barsOnly LowestBars.next) (LowestBars.new len) :=
  .plain (fun st => st.length = len)
    (fun st h => by
      unfold LowestBars.new at h
      obtain ⟨_, h0, h⟩ := Res.bind_ok h
      have := Except.ok.inj h
      subst this; rfl)
    (fun s c c' st v hl ho => lowestBars_later hl st (by omega))
    (fun c st v p ho h => by
      unfold barsOnly LowestBars.next at h
      obtain ⟨b, hb, h⟩ := Res.bind_ok h
      cases b with
      | false => have := Except.ok.inj h; subst this; exact ho
      | true =>
        simp only [Bool.not_true, Bool.false_eq_true, if_false] at h
        obtain ⟨o, _, h⟩ := Res.bind_ok h
        obtain ⟨o, _, h⟩ := Res.bind_ok h
        have := Except.ok.inj h
        subst this; exact ho)

end Pace
