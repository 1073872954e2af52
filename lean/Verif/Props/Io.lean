import Verif.Model.Io
import Verif.Spec.Data
import Verif.Props.Core
import Verif.Lemmas.TaExact

/-!
# C66: loading data frames
-/

set_option linter.unusedSectionVars false

namespace Pace
variable {α : Type} [F64 α]

/-- The cell of a column as the library presents it: missing if it is null or NaN. -/
def Spec.cell (v : Option α) : Option α := v.filter fun x => F64.feq x x

/-- The six columns a data frame must have. -/
structure Spec.Ohlcv (df : Frame α) (o h l c v t : List (Option α)) : Prop where
  open_ : df.columns.lookup "open" = some o
  high : df.columns.lookup "high" = some h
  low : df.columns.lookup "low" = some l
  close : df.columns.lookup "close" = some c
  volume : df.columns.lookup "volume" = some v
  time : df.columns.lookup "time" = some t

open Spec

theorem toF64_eq (c : List (Option α)) : toF64 c = c.map cell := by
  unfold toF64 cell
  congr 1
  funext v
  cases v with
  | none => rfl
  | some x => cases h : F64.feq x x <;> simp [isNan, h, Option.filter]

theorem toDuration_ok (fromSecs : α → Res Nat) : ∀ (c : List (Option α)) (ts : List (Option Nat)),
    toDuration fromSecs c = .ok ts ↔ List.Forall₂ (fun v t => match cell v with
      | none => t = none
      | some x => ∃ n, fromSecs x = .ok n ∧ t = some n) c ts
  | [], ts => by cases ts <;> simp [toDuration]
  | v :: c, ts => by
    have ih := toDuration_ok fromSecs c
    rw [List.forall₂_cons_left_iff]
    have hv : ∀ t, durationCell fromSecs v = .ok t ↔
        match cell v with
        | none => t = none
        | some x => ∃ n, fromSecs x = .ok n ∧ t = some n := by
      intro t
      cases v with
      | none => simp [cell, durationCell, eq_comm]
      | some x =>
        cases h : F64.feq x x
        · simp [cell, h, isNan, Option.filter, durationCell, eq_comm]
        · simp only [cell, h, isNan, Option.filter, durationCell, Bool.not_true, Bool.false_eq_true, if_false, if_true]
          cases fromSecs x <;> simp [eq_comm]
    unfold toDuration
    cases hm : durationCell fromSecs v with
    | error e =>
      refine ⟨fun h => by simp at h, ?_⟩
      rintro ⟨t, xs, h1, -⟩
      rw [(hv t).mpr h1] at hm; simp at hm
    | ok t =>
      cases hc : toDuration fromSecs c with
      | error e =>
        refine ⟨fun h => by simp at h, ?_⟩
        rintro ⟨t, xs, -, h2, -⟩
        rw [(ih xs).mpr h2] at hc; simp at hc
      | ok xs =>
        simp only [Res.ok_bind, Res.pure_eq, Except.ok.injEq]
        constructor
        · rintro rfl; exact ⟨t, xs, (hv t).mp hm, (ih xs).mp hc, rfl⟩
        · rintro ⟨t', xs', h1, h2, rfl⟩
          rw [(hv t').mpr h1] at hm
          rw [(ih xs').mpr h2] at hc
          cases hm; cases hc; rfl

theorem fromDf_ok {fromSecs : α → Res Nat} {df : Frame α} {d : DataProvider α} :
    DataProvider.fromDf fromSecs df = .ok d ↔ ∃ o h l c v t ts, Ohlcv df o h l c v t ∧ toDuration fromSecs t = .ok ts ∧ c ≠ [] ∧
      d = ⟨o.map cell, h.map cell, l.map cell, c.map cell, v.map cell, ts, 0, c.length - 1⟩ := by
  have hnew : ∀ (o h l c v : List (Option α)) ts, DataProvider.new o h l c v ts = .ok d ↔
      c ≠ [] ∧ d = ⟨o, h, l, c, v, ts, 0, c.length - 1⟩ := by
    intro o h l c v ts
    by_cases hc : c = []
    · obtain ⟨e, he⟩ := (C04_new o h l c v ts).1 hc
      rw [he]; simp [hc]
    · rw [(C04_new o h l c v ts).2 hc]; simp [hc, eq_comm]
  constructor
  · intro hd
    unfold DataProvider.fromDf Frame.column at hd
    cases ho : df.columns.lookup "open" with
    | none => simp [ho] at hd
    | some o =>
    cases hh : df.columns.lookup "high" with
    | none => simp [ho, hh] at hd
    | some h =>
    cases hl : df.columns.lookup "low" with
    | none => simp [ho, hh, hl] at hd
    | some l =>
    cases hc : df.columns.lookup "close" with
    | none => simp [ho, hh, hl, hc] at hd
    | some c =>
    cases hv : df.columns.lookup "volume" with
    | none => simp [ho, hh, hl, hc, hv] at hd
    | some v =>
    cases ht : df.columns.lookup "time" with
    | none => simp [ho, hh, hl, hc, hv, ht] at hd
    | some t =>
    simp only [ho, hh, hl, hc, hv, ht, unwrap_some, Res.ok_bind] at hd
    cases hts : toDuration fromSecs t with
    | error e => simp [hts] at hd
    | ok ts =>
    simp only [hts, Res.ok_bind, hnew, toF64_eq] at hd
    exact ⟨o, h, l, c, v, t, ts, ⟨ho, hh, hl, hc, hv, ht⟩, hts, by simpa using hd.1, by simpa using hd.2⟩
  · rintro ⟨o, h, l, c, v, t, ts, ⟨ho, hh, hl, hc, hv, ht⟩, hts, hne, rfl⟩
    unfold DataProvider.fromDf Frame.column
    simp only [ho, hh, hl, hc, hv, ht, hts, unwrap_some, Res.ok_bind, toF64_eq]
    exact (hnew _ _ _ _ _ _).mpr ⟨by simpa using hne, by simp⟩

/-- **C66.** A data frame can be loaded exactly if it has the columns open, high, low, close, volume and time, its close column
is not empty, and every time that is present (neither null nor NaN) converts to a duration; otherwise loading panics. -/
theorem C66_loads (fromSecs : α → Res Nat) (df : Frame α) :
    (∃ d, DataProvider.fromDf fromSecs df = .ok d) ↔
      ∃ o h l c v t, Ohlcv df o h l c v t ∧ c ≠ [] ∧ ∀ x, some x ∈ t → F64.feq x x = true → ∃ n, fromSecs x = .ok n := by
  constructor
  · rintro ⟨d, hd⟩
    obtain ⟨o, h, l, c, v, t, ts, hcols, hts, hne, -⟩ := fromDf_ok.mp hd
    refine ⟨o, h, l, c, v, t, hcols, hne, fun x hx hn => ?_⟩
    have hf := (toDuration_ok fromSecs t ts).mp hts
    obtain ⟨i, hi, hix⟩ := List.getElem_of_mem hx
    have := (List.forall₂_iff_get.mp hf).2 i hi ((List.forall₂_iff_get.mp hf).1 ▸ hi)
    simp only [List.get_eq_getElem, hix, cell, Option.filter, hn, if_true] at this
    obtain ⟨n, hn, _⟩ := this
    exact ⟨n, hn⟩
  · rintro ⟨o, h, l, c, v, t, hcols, hne, ht⟩
    have : ∃ ts, toDuration fromSecs t = .ok ts := by
      clear hcols
      induction t with
      | nil => exact ⟨[], rfl⟩
      | cons x t ih =>
        obtain ⟨ts, hts⟩ := ih fun y hy => ht y (List.mem_cons_of_mem _ hy)
        have hts' := (toDuration_ok fromSecs t ts).mp hts
        cases x with
        | none => exact ⟨none :: ts, (toDuration_ok _ _ _).mpr (.cons (by simp [cell]) hts')⟩
        | some x =>
          cases hx : F64.feq x x
          · exact ⟨none :: ts, (toDuration_ok _ _ _).mpr (.cons (by simp [cell, Option.filter, hx]) hts')⟩
          · obtain ⟨n, hn⟩ := ht x (by simp) hx
            exact ⟨some n :: ts, (toDuration_ok _ _ _).mpr (.cons (by simp [cell, Option.filter, hx, hn]) hts')⟩
    obtain ⟨ts, hts⟩ := this
    exact ⟨_, fromDf_ok.mpr ⟨o, h, l, c, v, t, ts, hcols, hts, hne, rfl⟩⟩

/-- **C66.** The loaded data: each column has the cells of the data frame's column of that name, in order, with null and NaN
cells missing; the times are those of the time column; the first tick is 0 and the last is the index of the last close. -/
theorem C66_cells {fromSecs : α → Res Nat} {df : Frame α} {d : DataProvider α} {o h l c v t : List (Option α)}
    (hcols : Ohlcv df o h l c v t) (hd : DataProvider.fromDf fromSecs df = .ok d) :
    d.open_ = o.map cell ∧ d.high = h.map cell ∧ d.low = l.map cell ∧ d.close = c.map cell ∧ d.volume = v.map cell ∧
      d.time.length = t.length ∧ d.startTick = 0 ∧ d.endTick + 1 = c.length ∧
      ∀ i (hi : i < t.length), match cell t[i] with
        | none => d.time[i]? = some none
        | some x => ∃ n, fromSecs x = .ok n ∧ d.time[i]? = some (some n) := by
  obtain ⟨o', h', l', c', v', t', ts, hc', hts, hne, rfl⟩ := fromDf_ok.mp hd
  obtain rfl : o' = o := Option.some.inj (hc'.open_.symm.trans hcols.open_)
  obtain rfl : h' = h := Option.some.inj (hc'.high.symm.trans hcols.high)
  obtain rfl : l' = l := Option.some.inj (hc'.low.symm.trans hcols.low)
  obtain rfl : c' = c := Option.some.inj (hc'.close.symm.trans hcols.close)
  obtain rfl : v' = v := Option.some.inj (hc'.volume.symm.trans hcols.volume)
  obtain rfl : t' = t := Option.some.inj (hc'.time.symm.trans hcols.time)
  have hf := List.forall₂_iff_get.mp ((toDuration_ok fromSecs t' ts).mp hts)
  have hpos : 0 < c'.length := List.length_pos_iff.mpr hne
  refine ⟨rfl, rfl, rfl, rfl, rfl, hf.1.symm, rfl, by show c'.length - 1 + 1 = _; omega, fun i hi => ?_⟩
  have h2 := hf.2 i hi (hf.1 ▸ hi)
  simp only [List.get_eq_getElem] at h2
  have hi' : i < ts.length := hf.1 ▸ hi
  have e : ts[i]? = some ts[i] := List.getElem?_eq_getElem hi'
  show match cell t'[i] with | none => ts[i]? = some none | some x => ∃ n, fromSecs x = .ok n ∧ ts[i]? = some (some n)
  cases hx : cell t'[i] with
  | none => rw [hx] at h2; dsimp only at h2 ⊢; rw [e, h2]
  | some x => rw [hx] at h2; dsimp only at h2 ⊢; obtain ⟨n, hn, h3⟩ := h2; exact ⟨n, hn, by rw [e, h3]⟩

/-- **C66.** No price or volume of loaded data is NaN. -/
theorem C66_no_nan {fromSecs : α → Res Nat} {df : Frame α} {d : DataProvider α} (hd : DataProvider.fromDf fromSecs df = .ok d) :
    ∀ col ∈ [d.open_, d.high, d.low, d.close, d.volume], ∀ x, some x ∈ col → F64.feq x x = true := by
  obtain ⟨o, h, l, c, v, t, ts, _, _, _, rfl⟩ := fromDf_ok.mp hd
  have key : ∀ (l : List (Option α)) x, some x ∈ l.map cell → F64.feq x x = true := by
    intro l x hx
    obtain ⟨y, _, hy⟩ := List.mem_map.mp hx
    simp only [cell, Option.filter_eq_some_iff] at hy
    exact hy.2
  intro col hcol
  simp only [List.mem_cons, List.not_mem_nil, or_false] at hcol
  rcases hcol with rfl | rfl | rfl | rfl | rfl <;> exact key _

/-- **C66.** A frame whose price and volume columns have `N` cells, none null or NaN, gives complete bars. -/
theorem C66_bars {fromSecs : α → Res Nat} {df : Frame α} {d : DataProvider α} {t : List (Option α)} {N : Nat}
    {o h l c v : Nat → α} (hcols : Ohlcv df (hist (fun k => some (o k)) N) (hist (fun k => some (h k)) N)
      (hist (fun k => some (l k)) N) (hist (fun k => some (c k)) N) (hist (fun k => some (v k)) N) t)
    (hn : ∀ k, k < N → F64.feq (o k) (o k) = true ∧ F64.feq (h k) (h k) = true ∧ F64.feq (l k) (l k) = true ∧
      F64.feq (c k) (c k) = true ∧ F64.feq (v k) (v k) = true)
    (hd : DataProvider.fromDf fromSecs df = .ok d) : Bars d N o h l c v ∧ d.startTick = 0 ∧ d.endTick + 1 = N := by
  obtain ⟨h1, h2, h3, h4, h5, -, h6, h7, -⟩ := C66_cells hcols hd
  have key : ∀ (g : Nat → α), (∀ k, k < N → F64.feq (g k) (g k) = true) →
      (hist (fun k => some (g k)) N).map cell = hist (fun k => some (g k)) N := by
    intro g hg
    simp only [hist, List.map_map]
    refine List.map_congr_left fun k hk => ?_
    simp [cell, Option.filter, hg k (List.mem_range.mp hk)]
  refine ⟨⟨?_, ?_, ?_, ?_, ?_⟩, h6, by simpa [hist] using h7⟩
  · rw [h1, key _ fun k hk => (hn k hk).1]; exact hasCol_hist _ _
  · rw [h2, key _ fun k hk => (hn k hk).2.1]; exact hasCol_hist _ _
  · rw [h3, key _ fun k hk => (hn k hk).2.2.1]; exact hasCol_hist _ _
  · rw [h4, key _ fun k hk => (hn k hk).2.2.2.1]; exact hasCol_hist _ _
  · rw [h5, key _ fun k hk => (hn k hk).2.2.2.2]; exact hasCol_hist _ _

/-- **C66.** A column of directions: 1 is Long, -1 is Short, everything else (also null and NaN) is no direction. -/
theorem C66_trade_dir (c : List (Option α)) (i : Nat) :
    ((toTradeDir c)[i]? = some (some .long) ↔ ∃ x, c[i]? = some (some x) ∧ F64.feq x x = true ∧ F64.feq x (lit 1) = true) ∧
    ((toTradeDir c)[i]? = some (some .short) ↔ ∃ x, c[i]? = some (some x) ∧ F64.feq x x = true ∧ F64.feq x (lit 1) = false ∧
      F64.feq x (-(lit 1)) = true) ∧
    (toTradeDir c).length = c.length := by
  simp only [toTradeDir, List.getElem?_map, List.length_map]
  cases c[i]? with
  | none => simp
  | some v =>
    cases v with
    | none => simp
    | some x =>
      cases h0 : F64.feq x x <;> cases h1 : F64.feq x (lit 1) <;> cases h2 : F64.feq x (-(lit 1)) <;>
        simp [isNan, tradeDirectionFromF64, h0, h1, h2]

/-- **C66.** Merging columns of the same length: row `i` has the cells of row `i` of the columns, null and NaN cells missing; a
row is never missing as a whole. -/
theorem C66_merge {df : Frame α} {n1 n2 n3 n4 : String} {a b c e : List (Option α)} (h1 : df.columns.lookup n1 = some a)
    (h2 : df.columns.lookup n2 = some b) (h3 : df.columns.lookup n3 = some c) (h4 : df.columns.lookup n4 = some e)
    {N : Nat} (ha : a.length = N) (hb : b.length = N) (hc : c.length = N) (he : e.length = N) :
    ∃ r2 r3 r4, df.mergeTwo n1 n2 = .ok r2 ∧ df.mergeThree n1 n2 n3 = .ok r3 ∧ df.mergeFour n1 n2 n3 n4 = .ok r4 ∧
      r2.length = N ∧ r3.length = N ∧ r4.length = N ∧ ∀ i, i < N → ∃ x y z w, a[i]? = some x ∧ b[i]? = some y ∧
        c[i]? = some z ∧ e[i]? = some w ∧ r2[i]? = some (some (cell x, cell y)) ∧
        r3[i]? = some (some (cell x, cell y, cell z)) ∧ r4[i]? = some (some (cell x, cell y, cell z, cell w)) := by
  refine ⟨_, _, _, by simp only [Frame.mergeTwo, Frame.column, h1, h2, unwrap_some, Res.ok_bind, Res.pure_eq]; rfl,
    by simp only [Frame.mergeThree, Frame.column, h1, h2, h3, unwrap_some, Res.ok_bind, Res.pure_eq]; rfl,
    by simp only [Frame.mergeFour, Frame.column, h1, h2, h3, h4, unwrap_some, Res.ok_bind, Res.pure_eq]; rfl,
    by simp [toF64_eq, ha, hb], by simp [toF64_eq, ha, hb, hc], by simp [toF64_eq, ha, hb, hc, he], fun i hi => ?_⟩
  refine ⟨a[i]'(by omega), b[i]'(by omega), c[i]'(by omega), e[i]'(by omega), ?_⟩
  simp [toF64_eq, ha, hb, hc, he, hi, List.zip, List.getElem?_zipWith]

/-- **C66.** `read_df` reads exactly the files with extension parquet and csv and panics on all others. -/
theorem C66_read_df {F : Type} (ext : Option String) (parquet csv : Res F) :
    (ext = some "parquet" → readDf ext parquet csv = parquet) ∧ (ext = some "csv" → readDf ext parquet csv = csv) ∧
      (ext ≠ some "parquet" → ext ≠ some "csv" → readDf ext parquet csv = .error .explicit) := by
  refine ⟨by rintro rfl; rfl, by rintro rfl; rfl, fun h1 h2 => ?_⟩
  unfold readDf
  split
  · exact absurd rfl h1
  · exact absurd rfl h2
  · rfl
  · rfl

theorem splitLastDot_none {l : List Char} (h : '.' ∉ l) : splitLastDot l = none := by
  induction l with
  | nil => rfl
  | cons c cs ih =>
    rw [splitLastDot, ih fun h' => h (List.mem_cons_of_mem _ h')]
    exact if_neg fun e => h (by rw [e]; exact List.mem_cons_self)

theorem splitLastDot_append (stem : List Char) {ext : List Char} (h : '.' ∉ ext) : splitLastDot (stem ++ '.' :: ext) = some (stem, ext) := by
  induction stem with
  | nil => rw [List.nil_append, splitLastDot, splitLastDot_none h]; rfl
  | cons c cs ih => rw [List.cons_append, splitLastDot, ih]

/-- Every name either has no dot or is split at its last dot. -/
theorem splitLastDot_cases (l : List Char) : '.' ∉ l ∨ ∃ stem ext, l = stem ++ '.' :: ext ∧ '.' ∉ ext := by
  induction l with
  | nil => exact .inl (by simp)
  | cons c cs ih =>
    rcases ih with h | ⟨s, e, rfl, he⟩
    · by_cases hc : c = '.'
      · exact .inr ⟨[], cs, by rw [hc]; rfl, h⟩
      · exact .inl (by simp only [List.mem_cons, not_or]; exact ⟨fun e => hc e.symm, h⟩)
    · exact .inr ⟨c :: s, e, rfl, he⟩

/-- **C66.** The extension of a file name: what follows the last dot, if something precedes it; the file name without extension is what
precedes it. A name without a dot, or whose only dot is its first character, has no extension and is its own file name. -/
theorem C66_extension (stem ext : List Char) (h : '.' ∉ ext) :
    (stem ≠ [] → stem ++ '.' :: ext ≠ ['.', '.'] → getFilenameExtension (stem ++ '.' :: ext) = some (String.ofList ext) ∧
      getFilename (stem ++ '.' :: ext) = String.ofList stem) ∧
    (getFilenameExtension ext = none ∧ getFilename ext = String.ofList ext) ∧
    (getFilenameExtension ('.' :: ext) = none ∧ getFilename ('.' :: ext) = String.ofList ('.' :: ext)) := by
  have h2 : ext ≠ ['.', '.'] := fun e => h (by rw [e]; simp)
  have h3 : '.' :: ext ≠ ['.', '.'] := fun e => h (by rw [(List.cons.inj e).2]; simp)
  have h4 : splitLastDot ('.' :: ext) = some ([], ext) := splitLastDot_append [] h
  refine ⟨fun hs hn => ?_, ?_, ?_⟩
  · rw [getFilenameExtension, getFilename, if_neg hn, if_neg hn, splitLastDot_append stem h]
    exact ⟨if_neg hs, if_neg hs⟩
  · rw [getFilenameExtension, getFilename, if_neg h2, if_neg h2, splitLastDot_none h]
    exact ⟨rfl, rfl⟩
  · rw [getFilenameExtension, getFilename, if_neg h3, if_neg h3, h4]
    exact ⟨if_pos rfl, if_pos rfl⟩

theorem extension_iff (name : List Char) (e : String) (he : '.' ∉ e.toList) (hne : e.toList ≠ []) :
    getFilenameExtension name = some e ↔ ∃ stem, stem ≠ [] ∧ name = stem ++ '.' :: e.toList := by
  constructor
  · intro h
    rcases splitLastDot_cases name with h0 | ⟨s, x, rfl, hx⟩
    · rw [(C66_extension [] name h0).2.1.1] at h; cases h
    · by_cases hs : s = []
      · subst hs
        rw [List.nil_append, (C66_extension [] x hx).2.2.1] at h; cases h
      · by_cases hn : s ++ '.' :: x = ['.', '.']
        · rw [getFilenameExtension, if_pos hn] at h; cases h
        · rw [((C66_extension s x hx).1 hs hn).1] at h
          refine ⟨s, hs, ?_⟩
          rw [← Option.some.inj h, String.toList_ofList]
  · rintro ⟨s, hs, rfl⟩
    have hn : s ++ '.' :: e.toList ≠ ['.', '.'] := by
      intro h
      have hl := congrArg List.length h
      have h1 : 0 < s.length := List.length_pos_of_ne_nil hs
      have h2 : 0 < e.toList.length := List.length_pos_of_ne_nil hne
      simp only [List.length_append, List.length_cons, List.length_nil] at hl
      omega
    rw [((C66_extension s e.toList he).1 hs hn).1, String.ofList_toList]

/-- **C66.** Which files are read and written, by their names: `something.parquet` and `something.csv` with the reader (writer) of that
format, lower case only; every other name panics, whatever the file contains. -/
theorem C66_files {F : Type} (name : List Char) (parquet csv : Res F) (wparquet wcsv : Res Unit) :
    ((∃ stem, stem ≠ [] ∧ name = stem ++ ".parquet".toList) →
      readDf (getFilenameExtension name) parquet csv = parquet ∧ saveDf (getFilenameExtension name) wparquet wcsv = wparquet) ∧
    ((∃ stem, stem ≠ [] ∧ name = stem ++ ".csv".toList) →
      readDf (getFilenameExtension name) parquet csv = csv ∧ saveDf (getFilenameExtension name) wparquet wcsv = wcsv) ∧
    ((¬ ∃ stem, stem ≠ [] ∧ name = stem ++ ".parquet".toList) → (¬ ∃ stem, stem ≠ [] ∧ name = stem ++ ".csv".toList) →
      readDf (getFilenameExtension name) parquet csv = .error .explicit ∧
      saveDf (getFilenameExtension name) wparquet wcsv = .error .explicit) := by
  have e1 := extension_iff name "parquet" (by decide) (by decide)
  have e2 := extension_iff name "csv" (by decide) (by decide)
  have save : ∀ e, saveDf e wparquet wcsv = readDf e wparquet wcsv := fun _ => rfl
  have r := C66_read_df (F := F) (getFilenameExtension name) parquet csv
  have w := C66_read_df (F := Unit) (getFilenameExtension name) wparquet wcsv
  rw [save]
  exact ⟨fun h => ⟨r.1 (e1.mpr h), w.1 (e1.mpr h)⟩, fun h => ⟨r.2.1 (e2.mpr h), w.2.1 (e2.mpr h)⟩,
    fun h1 h2 => ⟨r.2.2 (fun h => h1 (e1.mp h)) (fun h => h2 (e2.mp h)), w.2.2 (fun h => h1 (e1.mp h)) (fun h => h2 (e2.mp h))⟩⟩

example : getFilenameExtension "btc.1d.csv".toList = some "csv" ∧ getFilename "btc.1d.csv".toList = "btc.1d" ∧
    getFilenameExtension ".csv".toList = none ∧ getFilenameExtension "btc.CSV".toList = some "CSV" := by decide +kernel

/-- A frame with a null and a NaN cell. -/
def exFrame : Frame (Ex ℚ) where
  columns := [("time", [some (fin 60), some (fin 120)]), ("open", [some (fin 1), some (fin 2)]),
    ("high", [some (fin 3), some Ext.nan]), ("low", [none, some (fin 1)]), ("close", [some (fin 2), some (fin 1)]),
    ("volume", [some (fin 5), some (fin 6)])]

/-- The hypotheses are met: the frame loads, the NaN and the null cell are missing, and a frame without rows does not load. -/
example : Ohlcv exFrame [some (fin 1), some (fin 2)] [some (fin 3), some Ext.nan] [none, some (fin 1)] [some (fin 2), some (fin 1)]
      [some (fin 5), some (fin 6)] [some (fin 60), some (fin 120)] ∧
    (DataProvider.fromDf (fun _ => .ok 7) exFrame).map (fun d => (d.high, d.low, d.time)) =
      .ok ([some (fin 3), none], [none, some (fin 1)], [some 7, some 7]) ∧
    ¬ ∃ d, DataProvider.fromDf (α := Ex ℚ) (fun _ => .ok 7) ⟨[("time", []), ("open", []), ("high", []), ("low", []), ("close", []), ("volume", [])]⟩ = .ok d := by
  refine ⟨⟨rfl, rfl, rfl, rfl, rfl, rfl⟩, by decide +kernel, ?_⟩
  rintro ⟨d, hd⟩
  have : (DataProvider.fromDf (α := Ex ℚ) (fun _ => .ok 7) ⟨[("time", []), ("open", []), ("high", []), ("low", []), ("close", []), ("volume", [])]⟩).toOption.isNone = true := by
    decide +kernel
  rw [hd] at this
  exact absurd this (by simp [Except.toOption])

end Pace
