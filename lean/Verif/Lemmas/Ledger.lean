import Verif.Lemmas.Strategy
import Mathlib.Data.List.Chain

/-! # Invariants of the ledger -/

set_option linter.unusedSectionVars false

namespace Pace
open Spec
variable {α : Type} [F64 α]

theorem opposite_ne (d : TradeDirection) : opposite d ≠ d := by cases d <;> simp [opposite]
theorem ne_opposite {a b : TradeDirection} (h : a ≠ b) : a = opposite b := by cases a <;> cases b <;> simp_all [opposite]

/-- The trades `a` and `b` follow each other, with no order missed between them. -/
def Follows (cont : Bool) (o : Nat → Option TradeDirection) (a b : Trade α) : Prop :=
  ∃ x e, a.exitTick = some x ∧ b.entryTick = some e ∧
    (cont = true → x = e ∧ b.direction = opposite a.direction) ∧
    (cont = false → x < e ∧ ∀ k, x < k → k < e → o k = none)

/-- The size of a position entered on tick `t` at price `p`, when `closed` is the list of all positions ever closed. -/
def sizeSpec (cfg : StrategyConfig α) (closed : List (Closed α)) (t : Nat) (p : α) : α :=
  if cfg.buyWithEquity then
    (let equity := cfg.initialCapital + fsum ((closed.filter fun c => decide (c.exitTick ≤ t)).map Closed.profit) + lit 0
     if F64.le equity (lit 0) || F64.le p (lit 0) then lit 0 else equity / p)
  else lit 1

/-- Invariant of the ledger after `n` ticks with orders `o` and prices `pr`. -/
structure LedgerInv (cfg : StrategyConfig α) (o : Nat → Option TradeDirection) (pr : Nat → α) (n : Nat) (L : Ledger α) : Prop where
  closed : ∀ c ∈ L.closed, c.pos.tick < c.exitTick ∧ c.exitTick < n ∧ o c.pos.tick = some c.pos.dir ∧
    o c.exitTick = some (opposite c.pos.dir) ∧ (∀ k, c.pos.tick < k → k < c.exitTick → o k ≠ some (opposite c.pos.dir)) ∧
    c.pos.price = pr c.pos.tick ∧ c.exitPrice = pr c.exitTick ∧ c.pos.size = sizeSpec cfg L.closed c.pos.tick c.pos.price
  opened : ∀ x ∈ L.opened, x.tick < n ∧ o x.tick = some x.dir ∧ (∀ k, x.tick < k → k < n → o k ≠ some (opposite x.dir)) ∧
    x.price = pr x.tick ∧ x.size = sizeSpec cfg L.closed x.tick x.price
  chain : List.IsChain (Follows cfg.continous o) L.trades
  flat : L.opened = none → ∀ k, k < n → (∀ c ∈ L.closed.getLast?, c.exitTick < k) → o k = none
  first : ∀ T ∈ L.trades.head?, ∀ e, T.entryTick = some e → ∀ k, k < e → o k = none
  always : cfg.continous = true → L.opened = none → L.closed = []

theorem chain_snoc {β : Type} {R : β → β → Prop} {l : List β} {b : β} :
    List.IsChain R (l ++ [b]) ↔ List.IsChain R l ∧ ∀ a ∈ l.getLast?, R a b := by
  rw [List.isChain_append]; simp

theorem sizeSpec_snoc (cfg : StrategyConfig α) (l : List (Closed α)) (c : Closed α) {t : Nat} (p : α) (h : t < c.exitTick) :
    sizeSpec cfg (l ++ [c]) t p = sizeSpec cfg l t p := by
  simp [sizeSpec, List.filter_append, Nat.not_le.mpr h]

theorem enter_eq (cfg : StrategyConfig α) (l : List (Closed α)) {t : Nat} (h : ∀ c ∈ l, c.exitTick ≤ t) (p : α) (dir : TradeDirection) :
    (⟨l, none⟩ : Ledger α).enter cfg t p dir = ⟨l, some ⟨dir, t, p, sizeSpec cfg l t p⟩⟩ := by
  have : (l.filter fun c => decide (c.exitTick ≤ t)) = l := List.filter_eq_self.mpr fun c hc => by simpa using h c hc
  simp [Ledger.enter, sizeSpec, this, Ledger.realised]

theorem ledgerInv_tick {cfg : StrategyConfig α} {o : Nat → Option TradeDirection} {pr : Nat → α} {n : Nat} {L : Ledger α}
    (h : LedgerInv cfg o pr n L) : LedgerInv cfg o pr (n + 1) (L.tick cfg n (pr n) (o n)) := by
  have hcl : ∀ c ∈ L.closed, c.exitTick < n := fun c hc => (h.closed c hc).2.1
  have closed' : ∀ c ∈ L.closed, c.pos.tick < c.exitTick ∧ c.exitTick < n + 1 ∧ o c.pos.tick = some c.pos.dir ∧
    o c.exitTick = some (opposite c.pos.dir) ∧ (∀ k, c.pos.tick < k → k < c.exitTick → o k ≠ some (opposite c.pos.dir)) ∧
    c.pos.price = pr c.pos.tick ∧ c.exitPrice = pr c.exitTick ∧
      c.pos.size = sizeSpec cfg L.closed c.pos.tick c.pos.price := fun c hc => by
    obtain ⟨h1, h2, h3⟩ := h.closed c hc; exact ⟨h1, by omega, h3⟩
  obtain ⟨l, op⟩ := L
  cases hon : o n with
  | none =>
    have : Ledger.tick cfg ⟨l, op⟩ n (pr n) none = ⟨l, op⟩ := by simp [Ledger.tick]
    rw [this]
    refine ⟨closed', ?_, h.chain, ?_, h.first, h.always⟩
    · intro x hx
      obtain ⟨h1, h2, h3, h4⟩ := h.opened x hx
      refine ⟨by omega, h2, fun k hk1 hk2 => ?_, h4⟩
      rcases Nat.lt_succ_iff_lt_or_eq.mp hk2 with hk | rfl
      · exact h3 k hk1 hk
      · rw [hon]; simp
    · intro hf k hk hex
      rcases Nat.lt_succ_iff_lt_or_eq.mp hk with hk | rfl
      · exact h.flat hf k hk hex
      · exact hon
  | some dir =>
    cases op with
    | none =>
      have : Ledger.tick cfg ⟨l, none⟩ n (pr n) (some dir) = ⟨l, some ⟨dir, n, pr n, sizeSpec cfg l n (pr n)⟩⟩ :=
        enter_eq cfg l (fun c hc => (hcl c hc).le) (pr n) dir
      rw [this]
      refine ⟨closed', ?_, ?_, by simp, ?_, by simp⟩
      · rintro x ⟨⟩
        exact ⟨by simp, hon, fun k h1 h2 => by simp only at h1; omega, rfl, rfl⟩
      · rw [Ledger.trades_some, chain_snoc]
        have hch := h.chain
        rw [Ledger.trades_none] at hch
        refine ⟨hch, ?_⟩
        intro a ha
        obtain ⟨c, hc, rfl⟩ : ∃ c, l.getLast? = some c ∧ c.toTrade = a := by
          simpa [List.getLast?_map, Option.map_eq_some_iff] using ha
        refine ⟨c.exitTick, n, rfl, rfl, ?_, ?_⟩
        · intro hcont
          have := h.always hcont rfl
          simp only at this
          subst this
          simp at hc
        · intro _
          refine ⟨hcl c (List.mem_of_getLast? hc), fun k h1 h2 => h.flat rfl k h2 ?_⟩
          intro c' hc'
          simp only [hc, Option.mem_some_iff] at hc'
          exact hc' ▸ h1
      · intro T hT e he k hk
        rw [Ledger.trades_some] at hT
        cases l with
        | nil =>
          simp only [List.map_nil, List.nil_append, List.head?_cons, Option.mem_some_iff] at hT
          subst hT
          simp only [Holding.toTrade, Option.some.injEq] at he
          exact h.flat rfl k (by omega) (by simp)
        | cons c l => exact h.first T (by simpa using hT) e he k hk
    | some x =>
      obtain ⟨x1, x2, x3, x4, x5⟩ := h.opened x rfl
      by_cases hd : dir = x.dir
      · have : Ledger.tick cfg ⟨l, some x⟩ n (pr n) (some dir) = ⟨l, some x⟩ := by simp [Ledger.tick, hd]
        rw [this]
        refine ⟨closed', ?_, h.chain, by simp, h.first, by simp⟩
        rintro y ⟨⟩
        refine ⟨by omega, x2, fun k hk1 hk2 => ?_, x4, x5⟩
        rcases Nat.lt_succ_iff_lt_or_eq.mp hk2 with hk | rfl
        · exact x3 k hk1 hk
        · rw [hon, hd]; intro e; simp at e; exact opposite_ne _ e.symm
      · have hopp : dir = opposite x.dir := ne_opposite hd
        have hclosed2 : ∀ c ∈ l ++ [(⟨x, n, pr n⟩ : Closed α)], c.pos.tick < c.exitTick ∧ c.exitTick < n + 1 ∧
            o c.pos.tick = some c.pos.dir ∧ o c.exitTick = some (opposite c.pos.dir) ∧
            (∀ k, c.pos.tick < k → k < c.exitTick → o k ≠ some (opposite c.pos.dir)) ∧
            c.pos.price = pr c.pos.tick ∧ c.exitPrice = pr c.exitTick ∧
            c.pos.size = sizeSpec cfg (l ++ [(⟨x, n, pr n⟩ : Closed α)]) c.pos.tick c.pos.price := by
          intro c hc
          rcases List.mem_append.mp hc with hc | hc
          · obtain ⟨h1, h2, h3, h4, h5, h6, h7, h8⟩ := closed' c hc
            have := (h.closed c hc).2.1
            exact ⟨h1, h2, h3, h4, h5, h6, h7, by rw [sizeSpec_snoc _ _ _ _ (by simp only; omega)]; exact h8⟩
          · simp only [List.mem_singleton] at hc
            subst hc
            exact ⟨x1, by simp, x2, by rw [hon, hopp], x3, x4, rfl, by rw [sizeSpec_snoc _ _ _ _ x1]; exact x5⟩
        have hchain2 : List.IsChain (Follows cfg.continous o) (l.map Closed.toTrade ++ [Closed.toTrade ⟨x, n, pr n⟩]) := by
          have hch := h.chain
          rw [Ledger.trades_some, chain_snoc] at hch
          rw [chain_snoc]
          exact hch
        have hfirst2 : ∀ T ∈ (l.map Closed.toTrade ++ [Closed.toTrade ⟨x, n, pr n⟩]).head?, ∀ e, T.entryTick = some e →
            ∀ k, k < e → o k = none := by
          intro T hT e he k hk
          have hf := h.first
          rw [Ledger.trades_some] at hf
          cases l with
          | nil =>
            simp only [List.map_nil, List.nil_append, List.head?_cons, Option.mem_some_iff] at hT hf
            subst hT
            exact hf _ rfl e he k hk
          | cons c l => exact hf T (by simpa using hT) e he k hk
        cases hc : cfg.continous with
        | false =>
          have : Ledger.tick cfg ⟨l, some x⟩ n (pr n) (some dir) = ⟨l ++ [⟨x, n, pr n⟩], none⟩ := by
            simp [Ledger.tick, hd, hc]
          rw [this]
          refine ⟨hclosed2, by simp, ?_, ?_, ?_, by simp [hc]⟩
          · rw [Ledger.trades_none, List.map_append]; exact hchain2
          · intro _ k hk hex
            have := hex ⟨x, n, pr n⟩ (by simp)
            simp only at this
            omega
          · rw [Ledger.trades_none, List.map_append]; exact hfirst2
        | true =>
          have : Ledger.tick cfg ⟨l, some x⟩ n (pr n) (some dir) =
              ⟨l ++ [⟨x, n, pr n⟩], some ⟨dir, n, pr n, sizeSpec cfg (l ++ [⟨x, n, pr n⟩]) n (pr n)⟩⟩ := by
            rw [← enter_eq cfg (l ++ [(⟨x, n, pr n⟩ : Closed α)]) (t := n)
              (fun c hc => by have := (hclosed2 c hc).2.1; omega) (pr n) dir]
            simp [Ledger.tick, hd, hc]
          rw [this]
          refine ⟨hclosed2, ?_, ?_, by simp, ?_, by simp⟩
          · rintro y ⟨⟩
            exact ⟨by simp, hon, fun k h1 h2 => by simp only at h1; omega, rfl, rfl⟩
          · rw [Ledger.trades_some, List.map_append, chain_snoc]
            refine ⟨hchain2, ?_⟩
            intro a ha
            simp only [List.map_singleton, List.getLast?_concat, Option.mem_some_iff] at ha
            subst ha
            exact ⟨n, n, rfl, rfl, fun _ => ⟨rfl, hopp⟩, fun e => by simp [hc] at e⟩
          · intro T hT
            rw [Ledger.trades_some, List.map_append] at hT
            refine hfirst2 T ?_
            cases l <;> simpa using hT

theorem ledgerInv_zero (cfg : StrategyConfig α) (o : Nat → Option TradeDirection) (pr : Nat → α) :
    LedgerInv cfg o pr 0 ⟨[], none⟩ :=
  ⟨by simp, by simp, by simp [Ledger.trades], fun _ k hk => absurd hk (by omega), by simp [Ledger.trades], fun _ _ => rfl⟩

theorem ledger_inv (cfg : StrategyConfig α) (d : DataProvider α) (sig : Nat → Option TradeDirection) :
    ∀ n, LedgerInv cfg (order cfg sig) (fillPrice cfg d) n (ledger cfg d sig n)
  | 0 => ledgerInv_zero cfg _ _
  | n + 1 => ledgerInv_tick (ledger_inv cfg d sig n)

end Pace
