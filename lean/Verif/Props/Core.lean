import Verif.Model.Context
import Verif.Lemmas.Series

/-!
# Properties of the context and the data provider (C01–C04)
-/

namespace Pace

/-! ## C01 -/

/-- Specification: what the `n` calls of `next`, over all handles together, must have returned. -/
def Spec.ticks (first last n : Nat) : List (Option Nat) :=
  (List.range n).map fun k => if first + k ≤ last then some (first + k) else none

/-- A program on handles that exist: it only names handles created before. -/
def Spec.validOps : Nat → List CtxOp → Prop
  | _, [] => True
  | n, .clone i :: ops => i < n ∧ Spec.validOps (n + 1) ops
  | n, .next i :: ops => i < n ∧ Spec.validOps n ops

/-- The number of `next` calls of a program. -/
def Spec.nexts : List CtxOp → Nat
  | [] => 0
  | .clone _ :: ops => Spec.nexts ops
  | .next _ :: ops => Spec.nexts ops + 1

/-- Invariant after `k` calls of `next`. -/
private structure IterInv (first last k : Nat) (w : World) : Prop where
  handles : ∀ h ∈ w.handles, h.firstBarIndex = first ∧ h.lastBarIndex = last
  running : w.isRunning = decide (0 < k)
  index : w.index = first + (k - 1)

private theorem exec_spec (first last : Nat) (hfl : first ≤ last) (ops : List CtxOp) :
    ∀ (w : World) (k : Nat), IterInv first last k w → Spec.validOps w.handles.length ops →
      ∃ w', w.exec ops = .ok ((List.range' k (Spec.nexts ops)).map
          (fun k => if first + k ≤ last then some (first + k) else none), w') ∧
        IterInv first last (k + Spec.nexts ops) w' := by
  induction ops with
  | nil => intro w k h _; exact ⟨w, rfl, h⟩
  | cons op ops ih =>
    intro w k h hv
    cases op with
    | clone i =>
      obtain ⟨hi, hv⟩ := hv
      have hc : w.clone i = .ok { w with handles := w.handles ++ [w.handles[i]] } := by
        simp [World.clone, index_of_lt hi]
      obtain ⟨w', h1, h2⟩ := ih { w with handles := w.handles ++ [w.handles[i]] } k
        ⟨by
          intro x hx
          rcases List.mem_append.mp hx with hx | hx
          · exact h.handles x hx
          · rw [List.mem_singleton.mp hx]; exact h.handles _ (List.getElem_mem hi),
         h.running, h.index⟩ (by simpa using hv)
      exact ⟨w', by simp only [World.exec, hc, Res.ok_bind]; exact h1, h2⟩
    | next i =>
      obtain ⟨hi, hv⟩ := hv
      obtain ⟨hf, hl⟩ := h.handles _ (List.getElem_mem hi)
      have hn : ∃ w1, w.next i = .ok (if first + k ≤ last then some (first + k) else none, w1) ∧
          IterInv first last (k + 1) w1 ∧ w1.handles = w.handles := by
        by_cases hk : k = 0
        · subst hk
          refine ⟨{ w with isRunning := true }, ?_, ⟨h.handles, by simp, ?_⟩, rfl⟩
          · simp [World.next, index_of_lt hi, h.running, hfl, hf]
          · have := h.index; simpa using this
        · refine ⟨{ w with index := w.index + 1 }, ?_, ⟨h.handles, ?_, ?_⟩, rfl⟩
          · have hidx : w.index + 1 = first + k := by have := h.index; omega
            have hrun : w.isRunning = true := by rw [h.running]; simp; omega
            by_cases hle : first + k ≤ last <;>
              simp [World.next, index_of_lt hi, hrun, hidx, hl, hle]
          · have := h.running; simp [this]; omega
          · have := h.index; simp; omega
      obtain ⟨w1, h1, h2, h3⟩ := hn
      obtain ⟨w', h4, h5⟩ := ih w1 (k + 1) h2 (by rw [h3]; exact hv)
      refine ⟨w', ?_, ?_⟩
      · simp only [World.exec, h1, Res.ok_bind, h4, Spec.nexts, List.range'_succ, List.map_cons,
          Res.pure_eq]
      · simp only [Spec.nexts]
        rw [show k + (Spec.nexts ops + 1) = k + 1 + Spec.nexts ops by omega]; exact h5

private theorem new_spec {α : Type} {d : DataProvider α} {w : World} (hw : World.new d = .ok w) :
    d.startTick ≤ d.endTick ∧ IterInv d.startTick d.endTick 0 w ∧ w.handles.length = 1 := by
  unfold World.new at hw
  by_cases h : d.startTick ≤ d.endTick
  · simp only [usub_of_le h, Res.ok_bind, Res.pure_eq, Except.ok.injEq] at hw
    subst hw
    exact ⟨h, ⟨by simp, by simp, by simp⟩, rfl⟩
  · simp [usub_of_lt (Nat.lt_of_not_le h)] at hw

/-- **C01.** Whatever program of `clone` and `next` calls is executed on a new context and its clones, in any
interleaving: it never panics, and the results of the `next` calls, over all handles together and in
execution order, are the ticks first, first+1, ..., last, each exactly once, followed by `None` for ever. -/
theorem C01_iteration {α : Type} (d : DataProvider α) (w : World) (ops : List CtxOp)
    (hw : World.new d = .ok w) (hv : Spec.validOps 1 ops) :
    ∃ w', w.exec ops = .ok (Spec.ticks d.startTick d.endTick (Spec.nexts ops), w') := by
  obtain ⟨hfl, hi, hl⟩ := new_spec hw
  obtain ⟨w', h, _⟩ := exec_spec _ _ hfl ops w 0 hi (by rw [hl]; exact hv)
  exact ⟨w', by rw [h, Spec.ticks, List.range_eq_range']⟩

/-- **C01.** The shared bar index: the start tick before the first `next`, then the tick yielded last as long as
ticks are yielded, and one past the last tick after the first `None`; every further call moves it further. -/
theorem C01_index {α : Type} (d : DataProvider α) (w w' : World) (ops : List CtxOp)
    (os : List (Option Nat))
    (hw : World.new d = .ok w) (hv : Spec.validOps 1 ops) (h : w.exec ops = .ok (os, w')) :
    w'.index = d.startTick + (os.length - 1) ∧
    (∀ tick, os.getLast? = some (some tick) → w'.index = tick) := by
  obtain ⟨hfl, hi, hl⟩ := new_spec hw
  obtain ⟨w1, h1, h2⟩ := exec_spec _ _ hfl ops w 0 hi (by rw [hl]; exact hv)
  rw [h1] at h
  simp only [Except.ok.injEq, Prod.mk.injEq] at h
  obtain ⟨rfl, rfl⟩ := h
  have hidx := h2.index
  refine ⟨by simpa using hidx, ?_⟩
  intro tick ht
  rw [← List.range_eq_range'] at ht
  generalize Spec.nexts ops = n at ht hidx
  cases n with
  | zero => simp at ht
  | succ n =>
    rw [List.range_succ, List.map_append, List.map_singleton, List.getLast?_append] at ht
    simp only [List.getLast?_singleton, Option.some_or, Option.some.injEq] at ht
    split at ht
    · simp only [Option.some.injEq] at ht; omega
    · simp at ht

/-- A program with two handles, five `next` calls and three bars meets the hypotheses. -/
example : ∃ w, World.new (⟨[], [], [], [], [], [], 0, 2⟩ : DataProvider Nat) = .ok w ∧
    Spec.validOps 1 [.next 0, .clone 0, .next 1, .next 0, .next 1, .next 0] ∧
    (w.exec [.next 0, .clone 0, .next 1, .next 0, .next 1, .next 0]).map (·.1) =
      .ok [some 0, some 1, some 2, none, none] :=
  ⟨_, rfl, by simp [Spec.validOps], rfl⟩

/-- **C01** for the provider of the project: all bars of the close column, then `None`. -/
theorem C01_in_memory {α : Type} (open_ high low close volume : List (Option α))
    (time : List (Option Nat)) (d : DataProvider α) (w : World) (ops : List CtxOp)
    (hd : DataProvider.new open_ high low close volume time = .ok d) (hw : World.new d = .ok w)
    (hv : Spec.validOps 1 ops) :
    ∃ w', w.exec ops = .ok ((List.range (Spec.nexts ops)).map
      (fun k => if k < close.length then some k else none), w') := by
  obtain ⟨w', h⟩ := C01_iteration d w ops hw hv
  refine ⟨w', ?_⟩
  rw [h, Spec.ticks]
  unfold DataProvider.new at hd
  by_cases hc : 1 ≤ close.length
  · simp only [usub_of_le hc, Res.ok_bind, Res.pure_eq, Except.ok.injEq] at hd
    subst hd
    simp only [Nat.zero_add]
    congr 3
    funext k
    by_cases hk : k < close.length
    · rw [if_pos hk, if_pos (by omega)]
    · rw [if_neg hk, if_neg (by omega)]
  · simp [usub_of_lt (Nat.lt_of_not_le hc)] at hd

/-! ## C02 -/

private theorem index_ok_iff {β : Type} {v : List β} {i : Nat} {b : β} :
    index v i = .ok b ↔ v[i]? = some b := by
  unfold index; cases v[i]? <;> simp

private theorem index_err_iff {β : Type} {v : List β} {i : Nat} :
    (∃ e, index v i = .error e) ↔ v.length ≤ i := by
  unfold index
  rcases Nat.lt_or_ge i v.length with h | h
  · simp [h]
  · simp [h]

/-- **C02.** Each bar accessor returns the value `b` exactly if `b` is the element of its column at the current bar
index, and panics exactly if the index is outside the column. -/
theorem C02_bar_accessors {α : Type} (c : Ctx α) (b : Option α) (b' : Option Nat) :
    (c.barOpen = .ok b ↔ c.data.open_[c.index]? = some b) ∧
    (c.barHigh = .ok b ↔ c.data.high[c.index]? = some b) ∧
    (c.barLow = .ok b ↔ c.data.low[c.index]? = some b) ∧
    (c.barClose = .ok b ↔ c.data.close[c.index]? = some b) ∧
    (c.barVolume = .ok b ↔ c.data.volume[c.index]? = some b) ∧
    (c.barTime = .ok b' ↔ c.data.time[c.index]? = some b') ∧
    ((∃ e, c.barOpen = .error e) ↔ c.data.open_.length ≤ c.index) ∧
    ((∃ e, c.barHigh = .error e) ↔ c.data.high.length ≤ c.index) ∧
    ((∃ e, c.barLow = .error e) ↔ c.data.low.length ≤ c.index) ∧
    ((∃ e, c.barClose = .error e) ↔ c.data.close.length ≤ c.index) ∧
    ((∃ e, c.barVolume = .error e) ↔ c.data.volume.length ≤ c.index) ∧
    ((∃ e, c.barTime = .error e) ↔ c.data.time.length ≤ c.index) :=
  ⟨index_ok_iff, index_ok_iff, index_ok_iff, index_ok_iff, index_ok_iff, index_ok_iff,
   index_err_iff, index_err_iff, index_err_iff, index_err_iff, index_err_iff, index_err_iff⟩

/-- `Bar::is_up` compares the close with the open of the current bar, and panics if one is missing. -/
theorem C02_is_up {α : Type} [F64 α] (c : Ctx α) (b : Bool) :
    c.isUp = .ok b ↔ ∃ cl op, c.data.close[c.index]? = some (some cl) ∧
      c.data.open_[c.index]? = some (some op) ∧ b = fge cl op := by
  unfold Ctx.isUp Ctx.barClose Ctx.barOpen DataProvider.getClose DataProvider.getOpen index
  cases c.data.close[c.index]? with
  | none => simp
  | some cl => cases cl with
    | none => simp
    | some cl =>
      simp only [Res.ok_bind, unwrap_some]
      cases c.data.open_[c.index]? with
      | none => simp
      | some op => cases op with
        | none => simp
        | some op => simp [eq_comm]

private theorem count_none (c n : Nat) : ((List.range n).map fun k => if k < c then some k else none).count none = n - c := by
  induction n with
  | zero => simp
  | succ n ih =>
    rw [List.range_succ, List.map_append, List.count_append, ih]
    by_cases h : n < c
    · simp [h]; omega
    · simp [h]; omega

/-- **C02.** After a complete iteration (the first `None`), whoever holds a handle, the shared bar index is past the last bar: one past it
after the first `None` and one further for every further `None`.  So reading the close of "the current bar" panics, and so does reading any
other column that has no more values than the closes. -/
theorem C02_after_iteration {α : Type} (open_ high low close volume : List (Option α))
    (time : List (Option Nat)) (d : DataProvider α) (w w' : World) (ops : List CtxOp)
    (os : List (Option Nat))
    (hd : DataProvider.new open_ high low close volume time = .ok d) (hw : World.new d = .ok w)
    (hv : Spec.validOps 1 ops) (h : w.exec ops = .ok (os, w')) (hend : none ∈ os) :
    w'.index + 1 = close.length + os.count none ∧ (∃ e, (⟨d, w'.index⟩ : Ctx α).barClose = .error e) ∧
      (open_.length ≤ close.length → ∃ e, (⟨d, w'.index⟩ : Ctx α).barOpen = .error e) ∧
      (high.length ≤ close.length → ∃ e, (⟨d, w'.index⟩ : Ctx α).barHigh = .error e) ∧
      (low.length ≤ close.length → ∃ e, (⟨d, w'.index⟩ : Ctx α).barLow = .error e) ∧
      (volume.length ≤ close.length → ∃ e, (⟨d, w'.index⟩ : Ctx α).barVolume = .error e) ∧
      (time.length ≤ close.length → ∃ e, (⟨d, w'.index⟩ : Ctx α).barTime = .error e) := by
  obtain ⟨w1, h1⟩ := C01_in_memory open_ high low close volume time d w ops hd hw hv
  have hi := (C01_index d w w' ops os hw hv h).1
  rw [h] at h1
  simp only [Except.ok.injEq, Prod.mk.injEq] at h1
  obtain ⟨rfl, -⟩ := h1
  have hpos := List.count_pos_iff.mpr hend
  rw [count_none] at hpos ⊢
  simp only [List.length_map, List.length_range] at hi
  unfold DataProvider.new at hd
  by_cases hc : 1 ≤ close.length
  · simp only [usub_of_le hc, Res.ok_bind, Res.pure_eq, Except.ok.injEq] at hd
    subst hd
    simp only at hi
    refine ⟨by omega, ?_, fun hl => ?_, fun hl => ?_, fun hl => ?_, fun hl => ?_, fun hl => ?_⟩ <;> apply index_err_iff.mpr <;>
      simp only <;> omega
  · simp [usub_of_lt (Nat.lt_of_not_le hc)] at hd

/-- The hypotheses of `C02_after_iteration` are met by iterating two bars to the end. -/
example : ∃ d w w' os, DataProvider.new [some 1, some 2] [some 1, some 2] [some 1, some 2] [some 1, some 2]
      [some 1, some 2] [none, none] = .ok d ∧ World.new d = .ok w ∧
    w.exec [.next 0, .next 0, .next 0] = .ok (os, w') ∧ none ∈ os :=
  ⟨_, _, _, _, rfl, rfl, rfl, by simp⟩

/-! ## C03 -/

private theorem lookback_iff {α : Type} (col : List (Option α)) (t n : Nat) (b : Option α) :
    (if t < n then .ok none else index col (t - n)) = Except.ok (ε := Panic) b ↔
      (t < n ∧ b = none) ∨ (n ≤ t ∧ col[t - n]? = some b) := by
  split
  · rename_i h; simp [h, eq_comm]
  · rename_i h; simp [h, index_ok_iff, Nat.le_of_not_lt h]

private theorem lookback_err_iff {α : Type} (col : List (Option α)) (t n : Nat) :
    (∃ e, (if t < n then .ok none else index col (t - n)) = Except.error (ε := Panic) e) ↔
      n ≤ t ∧ col.length ≤ t - n := by
  split
  · rename_i h; simp; omega
  · rename_i h; simp only [index_err_iff]; omega

/-- **C03.** The look-back accessors at tick `t`: `None` if `n > t`, else the value of tick `t - n`; they panic exactly if
that tick is outside the column. -/
theorem C03_look_back {α : Type} (d : DataProvider α) (t n : Nat) (b : Option α) :
    ((⟨d, t⟩ : Ctx α).high n = .ok b ↔ (t < n ∧ b = none) ∨ (n ≤ t ∧ d.high[t - n]? = some b)) ∧
    ((⟨d, t⟩ : Ctx α).low n = .ok b ↔ (t < n ∧ b = none) ∨ (n ≤ t ∧ d.low[t - n]? = some b)) ∧
    ((⟨d, t⟩ : Ctx α).close n = .ok b ↔ (t < n ∧ b = none) ∨ (n ≤ t ∧ d.close[t - n]? = some b)) ∧
    ((⟨d, t⟩ : Ctx α).volume n = .ok b ↔ (t < n ∧ b = none) ∨ (n ≤ t ∧ d.volume[t - n]? = some b)) ∧
    ((∃ e, (⟨d, t⟩ : Ctx α).high n = .error e) ↔ n ≤ t ∧ d.high.length ≤ t - n) ∧
    ((∃ e, (⟨d, t⟩ : Ctx α).low n = .error e) ↔ n ≤ t ∧ d.low.length ≤ t - n) ∧
    ((∃ e, (⟨d, t⟩ : Ctx α).close n = .error e) ↔ n ≤ t ∧ d.close.length ≤ t - n) ∧
    ((∃ e, (⟨d, t⟩ : Ctx α).volume n = .error e) ↔ n ≤ t ∧ d.volume.length ≤ t - n) :=
  ⟨lookback_iff .., lookback_iff .., lookback_iff .., lookback_iff ..,
   lookback_err_iff .., lookback_err_iff .., lookback_err_iff .., lookback_err_iff ..⟩

/-- **C03**, never ahead: at a tick inside the data they return `None` or the value of an earlier tick, unaffected by
everything after the current tick. -/
theorem C03_no_look_ahead {α : Type} (d d' : DataProvider α) (t n : Nat)
    (hh : d.high.take (t + 1) = d'.high.take (t + 1)) (hl : d.low.take (t + 1) = d'.low.take (t + 1))
    (hc : d.close.take (t + 1) = d'.close.take (t + 1))
    (hv : d.volume.take (t + 1) = d'.volume.take (t + 1)) :
    (⟨d, t⟩ : Ctx α).high n = (⟨d', t⟩ : Ctx α).high n ∧
    (⟨d, t⟩ : Ctx α).low n = (⟨d', t⟩ : Ctx α).low n ∧
    (⟨d, t⟩ : Ctx α).close n = (⟨d', t⟩ : Ctx α).close n ∧
    (⟨d, t⟩ : Ctx α).volume n = (⟨d', t⟩ : Ctx α).volume n := by
  have key : ∀ {a b : List (Option α)}, a.take (t + 1) = b.take (t + 1) →
      (if t < n then .ok none else index a (t - n)) = (if t < n then .ok none else index b (t - n)) := by
    intro a b hab
    split
    · rfl
    · have := congrArg (fun l => l[t - n]?) hab
      simp only [List.getElem?_take, show t - n < t + 1 by omega, if_true] at this
      simp [index, this]
  exact ⟨key hh, key hl, key hc, key hv⟩

/-- `l` is what a range accessor must return for a column: the `len` values of ticks `t-len+1 .. t`, oldest first. -/
def Spec.IsRange {β : Type} (column : List β) (t len : Nat) (l : List β) : Prop :=
  l.length = len ∧ ∀ i, i < len → l[i]? = column[t - (len - 1) + i]?

private theorem range_accessor {β : Type} (column : List β) (t len : Nat) (l : List β) :
    (do let s ← (do let l ← usub len 1; usub t l); slice column s (t + 1)) = .ok l ↔
      1 ≤ len ∧ len ≤ t + 1 ∧ t < column.length ∧ Spec.IsRange column t len l := by
  by_cases h1 : 1 ≤ len
  · simp only [usub_of_le h1, Res.ok_bind]
    by_cases h2 : len - 1 ≤ t
    · simp only [usub_of_le h2, Res.ok_bind, slice]
      by_cases h3 : t < column.length
      · rw [if_pos ⟨by omega, by omega⟩]
        simp only [Except.ok.injEq]
        constructor
        · rintro rfl
          refine ⟨h1, by omega, h3, ?_, ?_⟩
          · simp; omega
          · intro i hi
            rw [List.getElem?_drop, List.getElem?_take, if_pos (by omega)]
        · rintro ⟨-, -, -, hl, he⟩
          apply List.ext_getElem?
          intro i
          by_cases hi : i < len
          · rw [he i hi, List.getElem?_drop, List.getElem?_take, if_pos (by omega)]
          · rw [List.getElem?_eq_none (by simp; omega), List.getElem?_eq_none (by omega)]
      · rw [if_neg (by omega)]
        simp; intros; omega
    · simp only [usub_of_lt (Nat.lt_of_not_le h2), Res.error_bind]
      simp; intros; omega
  · simp only [usub_of_lt (Nat.lt_of_not_le h1), Res.error_bind]
    simp; intros; omega

/-- **C03.** `opens/highs/lows/closes/volumes(len)` at tick `t` return `l` exactly if `1 ≤ len ≤ t+1`, tick `t` is inside
the column and `l` is the list of the values of ticks `t-len+1 .. t`; in all other cases they panic. -/
theorem C03_ranges {α : Type} (d : DataProvider α) (t len : Nat) (l : List (Option α)) :
    ((⟨d, t⟩ : Ctx α).opens len = .ok l ↔
      1 ≤ len ∧ len ≤ t + 1 ∧ t < d.open_.length ∧ Spec.IsRange d.open_ t len l) ∧
    ((⟨d, t⟩ : Ctx α).highs len = .ok l ↔
      1 ≤ len ∧ len ≤ t + 1 ∧ t < d.high.length ∧ Spec.IsRange d.high t len l) ∧
    ((⟨d, t⟩ : Ctx α).lows len = .ok l ↔
      1 ≤ len ∧ len ≤ t + 1 ∧ t < d.low.length ∧ Spec.IsRange d.low t len l) ∧
    ((⟨d, t⟩ : Ctx α).closes len = .ok l ↔
      1 ≤ len ∧ len ≤ t + 1 ∧ t < d.close.length ∧ Spec.IsRange d.close t len l) ∧
    ((⟨d, t⟩ : Ctx α).volumes len = .ok l ↔
      1 ≤ len ∧ len ≤ t + 1 ∧ t < d.volume.length ∧ Spec.IsRange d.volume t len l) :=
  ⟨range_accessor .., range_accessor .., range_accessor .., range_accessor .., range_accessor ..⟩

/-- A concrete range: the last two of three highs. -/
example : (⟨⟨[], [some 5, some 7, none], [], [], [], [], 0, 2⟩, 2⟩ : Ctx Nat).highs 2 = .ok [some 7, none] := rfl

/-! ## C04 -/

/-- **C04.** The provider made from six columns spans ticks `0 .. len(close)-1` and holds the columns unchanged; an empty
close column is a panic, and that is the only one. -/
theorem C04_new {α : Type} (open_ high low close volume : List (Option α)) (time : List (Option Nat)) :
    (close = [] → ∃ e, DataProvider.new open_ high low close volume time = .error e) ∧
    (close ≠ [] → DataProvider.new open_ high low close volume time =
      .ok ⟨open_, high, low, close, volume, time, 0, close.length - 1⟩) := by
  constructor
  · rintro rfl; exact ⟨.underflow, rfl⟩
  · intro h
    have : 1 ≤ close.length := List.length_pos_iff.mpr h
    simp [DataProvider.new, usub_of_le this]

/-- **C04.** `from_values`: all price columns and the volume are the values, no bar has a time. -/
theorem C04_from_values {α : Type} (values : List (Option α)) :
    (values = [] → ∃ e, DataProvider.fromValues values = .error e) ∧
    (values ≠ [] → DataProvider.fromValues values =
      .ok ⟨values, values, values, values, values, List.replicate values.length none, 0,
        values.length - 1⟩) := by
  constructor
  · rintro rfl; exact ⟨.underflow, rfl⟩
  · intro h
    have : 1 ≤ values.length := List.length_pos_iff.mpr h
    simp [DataProvider.fromValues, usub_of_le this]

/-- **C04.** A context on such a provider counts `len(close)` bars, from tick 0 to tick `len(close)-1`. -/
theorem C04_context {α : Type} (open_ high low close volume : List (Option α))
    (time : List (Option Nat)) (d : DataProvider α)
    (hd : DataProvider.new open_ high low close volume time = .ok d) :
    World.new d = .ok ⟨0, false, [⟨0, close.length - 1, close.length⟩]⟩ ∧ 1 ≤ close.length := by
  unfold DataProvider.new at hd
  by_cases hc : 1 ≤ close.length
  · simp only [usub_of_le hc, Res.ok_bind, Res.pure_eq, Except.ok.injEq] at hd
    subst hd
    refine ⟨?_, hc⟩
    simp [World.new, usub, Nat.sub_add_cancel hc]
  · simp [usub_of_lt (Nat.lt_of_not_le hc)] at hd

example : ∃ d, DataProvider.new [some 1] [some 1] [some 1] [some 1, none] [] [] = .ok (d : DataProvider Nat) :=
  ⟨_, rfl⟩

end Pace
