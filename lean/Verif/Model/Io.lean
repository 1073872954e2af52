import Verif.Model.Defaults

/-!
# Loading data frames, and the complete backtest program
-/

namespace Pace
variable {α : Type} [F64 α]

/-! ## Data frames

Of a `polars::DataFrame` the project only reads columns by name, each cast to `Float64`: a cell is null or an `f64` (polars
itself is not modelled). -/

/-- The columns of a data frame after `cast(&DataType::Float64)`, by name. -/
structure Frame (α : Type) where
  columns : List (String × List (Option α))

/-- `df.column(name).unwrap()`: panics if there is no such column. -/
def Frame.column (f : Frame α) (name : String) : Res (List (Option α)) := unwrap (f.columns.lookup name)

/-- `f64::is_nan`: `self != self`. -/
def isNan (x : α) : Bool := !F64.feq x x

/-- `Series::to_f64`, polars/series.rs:22-37. -/
def toF64 (c : List (Option α)) : List (Option α) := c.map fun val =>
  match val with
  | none => none
  | some x => if isNan x then none else val

/-- The closure of `Series::to_duration`, polars/series.rs:80-86.  `fromSecs x` stands for `Duration::from_secs_f64(x)` in
milliseconds, which panics on negative, too large and infinite numbers; it is a parameter. -/
def durationCell (fromSecs : α → Res Nat) : Option α → Res (Option Nat)
  | none => .ok none
  | some x => if isNan x then .ok none else do return some (← fromSecs x)

/-- `Series::to_duration`, polars/series.rs:73-88. -/
def toDuration (fromSecs : α → Res Nat) : List (Option α) → Res (List (Option Nat))
  | [] => .ok []
  | val :: c => do
    let x ← durationCell fromSecs val
    let xs ← toDuration fromSecs c
    return x :: xs

/-- `Series::to_trade_dir`, polars/series.rs:90-105. -/
def toTradeDir (c : List (Option α)) : List (Option TradeDirection) := c.map fun val =>
  match val with
  | none => none
  | some x => if isNan x then none else tradeDirectionFromF64 val

/-- `InMemoryDataProvider::from_df`, polars/in_memory_data_provider.rs:10-19. -/
def DataProvider.fromDf (fromSecs : α → Res Nat) (df : Frame α) : Res (DataProvider α) := do
  let open_ ← df.column "open"
  let open_ := toF64 open_
  let high ← df.column "high"
  let high := toF64 high
  let low ← df.column "low"
  let low := toF64 low
  let close ← df.column "close"
  let close := toF64 close
  let volume ← df.column "volume"
  let volume := toF64 volume
  let time ← df.column "time"
  let time ← toDuration fromSecs time
  DataProvider.new open_ high low close volume time

/-- `DataFrame::merge_two_columns`, polars/dataframe.rs:36-49. -/
def Frame.mergeTwo (df : Frame α) (first second : String) : Res (List (Option (Option α × Option α))) := do
  let a ← df.column first
  let b ← df.column second
  return ((toF64 a).zip (toF64 b)).map fun p => some (p.1, p.2)

/-- `DataFrame::merge_three_columns`, polars/dataframe.rs:51-67. -/
def Frame.mergeThree (df : Frame α) (first second third : String) : Res (List (Option (Option α × Option α × Option α))) := do
  let a ← df.column first
  let b ← df.column second
  let c ← df.column third
  return (((toF64 a).zip (toF64 b)).zip (toF64 c)).map fun p => some (p.1.1, p.1.2, p.2)

/-- `DataFrame::merge_four_columns`, polars/dataframe.rs:69-88. -/
def Frame.mergeFour (df : Frame α) (first second third fourth : String) :
    Res (List (Option (Option α × Option α × Option α × Option α))) := do
  let a ← df.column first
  let b ← df.column second
  let c ← df.column third
  let e ← df.column fourth
  return ((((toF64 a).zip (toF64 b)).zip (toF64 c)).zip (toF64 e)).map fun p => some (p.1.1.1, p.1.1.2, p.1.2, p.2)

/-- `read_df`, polars/io.rs:21-29 (and its copy polars/dataframe.rs:103-111): `extension` is the file name extension, `parquet`
and `csv` what the two readers do with the file. -/
def readDf {F : Type} (extension : Option String) (parquet csv : Res F) : Res F :=
  match extension with
  | some "parquet" => parquet
  | some "csv" => csv
  | some _ => .error .explicit
  | none => .error .explicit

/-- `rsplitn(2, '.')` of the standard library, the splitting used by `Path::extension` and `Path::file_stem`: what is before and after
the last dot. -/
def splitLastDot : List Char → Option (List Char × List Char)
  | [] => none
  | c :: cs =>
    match splitLastDot cs with
    | some (before, after) => some (c :: before, after)
    | none => if c = '.' then some ([], cs) else none

/-- `get_filename_extension`, utils/fs.rs:3-5, of a path with file name `name`: `Path::extension` of the standard library, which is
`None` for `..`, for a name without a dot and for a name whose only dot is its first character.  (That a path's file name is its last
component is the standard library's; names that are not UTF-8 have no extension for this function and are left out.) -/
def getFilenameExtension (name : List Char) : Option String :=
  if name = ['.', '.'] then none
  else match splitLastDot name with
    | none => none
    | some (before, after) => if before = [] then none else some (String.ofList after)

/-- `get_filename`, utils/fs.rs:7-9: `Path::file_stem` of the standard library, with the same simplification. -/
def getFilename (name : List Char) : String :=
  if name = ['.', '.'] then String.ofList name
  else match splitLastDot name with
    | none => String.ofList name
    | some (before, _) => if before = [] then String.ofList name else String.ofList before

/-- `save_df`, polars/io.rs:31-40 (and polars/dataframe.rs:113-122): `parquet` and `csv` are what the two writers do. -/
def saveDf (extension : Option String) (parquet csv : Res Unit) : Res Unit :=
  match extension with
  | some "parquet" => parquet
  | some "csv" => csv
  | some _ => .error .explicit
  | none => .error .explicit

/-! ## The loop -/

/-- `for i in ctx.clone() { ctx.bar.index.set(i); body }`, example/src/main.rs:64-71: the loop iterates handle `k` of the context
(core/context.rs:198-212); `body` sees the data and the shared index.  The relation holds for the executions that end without
panic, `os` being what the rounds returned. -/
inductive ForLoop {P O : Type} (d : DataProvider α) (k : Nat) (body : Ctx α → P → Res (O × P)) :
    World → P → List O → World → P → Prop where
  | done {w w' p} : w.next k = .ok (none, w') → ForLoop d k body w p [] w' p
  | round {w w' i p o p' os w'' p''} : w.next k = .ok (some i, w') → body ⟨d, i⟩ p = .ok (o, p') →
      ForLoop d k body { w' with index := i } p' os w'' p'' → ForLoop d k body w p (o :: os) w'' p''

/-- The program of example/src/main.rs:30-71 from the data frame on, for an indicator `ind`, its construction `ind0`, the
strategy `sgn` started in `q0`, a runner configuration and a risk-free rate.  It holds if the program ends without panic, the
rounds of the loop having returned `os`.  (The project's printing and plotting of the result is not modelled.) -/
def BacktestProgram {S Q O : Type} (fromSecs : α → Res Nat) (df : Frame α) (ind0 : Res S) (ind : Ctx α → S → Res (O × S))
    (q0 : Q) (sgn : Q → O → Option TradeDirection × Q) (cfg : StrategyConfig α) (rfr : α)
    (os : List (O × Option TradeDirection × Strategy α × TvMetrics α)) : Prop :=
  ∃ d w w1 p w2 p2, DataProvider.fromDf fromSecs df = .ok d ∧ World.new d = .ok w ∧
    Program.new ind0 q0 cfg rfr = .ok p ∧ w.clone 0 = .ok w1 ∧ ForLoop d 1 (Program.next ind sgn) w1 p os w2 p2

end Pace
