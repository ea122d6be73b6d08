/-
Model of the preparation of the data files: `/repo/prepare_data.py` (`prepare_ml20m`, `prepare_amazon`,
`prepare_steam`, `save_data_dynamics`), `load_steam` of `/repo/load_data.py`, and `print_recsys_df_stats`
of `/repo/source/data_preparation.py`. Reading and writing files is left out: a CSV file is the list of its
rows. Time stamps are whole seconds since 1970.
-/
import Mathlib.Data.Rat.Floor
import Verif.Model.LoadData
import Verif.Model.ExperimentData

namespace DynCF
variable {K : Type}

/-- A row of the downloaded file: `[[USER_ID, ITEM_ID, TIMESTAMP]]`. -/
structure RawRow (U : Type) where
  user : U
  item : U
  ts : ℤ
  deriving DecidableEq

/-- `pd.to_datetime(ts, unit='s', utc=True).round('d')` as the number of days since 1970: the nearest
midnight, noon to the even day. -/
def dayOf (ts : ℤ) : ℤ := roundHalfEven ((ts : ℚ) / 86400)

/-- prepare_data.py:47-51 (= 67-71, 88-92): the index, the day and the relevance column. -/
def preparedRows [One K] (rows : List (RawRow ℤ)) : List (IRow K) :=
  rows.mapIdx fun i r => ⟨i, ⟨r.user, r.item, 1, r.ts, dayOf r.ts⟩⟩

/-- prepare_data.py:39-54 `prepare_ml20m`. `sortTs` is `sort_values(by=TIMESTAMP)`, a single-key sort that
is not guaranteed to be stable; `tail(n)` keeps the last `n` rows. -/
def prepareMl20m [One K] (sortTs : List (RawRow ℤ) → List (RawRow ℤ)) (data : List (RawRow ℤ)) :
    List (IRow K) :=
  let data := sortTs data
  let n := pyInt ((data.length : ℚ) * (1 / 5))
  preparedRows (data.drop (data.length - n.toNat))

/-- prepare_data.py:72-73 (= 93-94): both id columns are encoded. -/
def encodeRaw {V : Type} [LinearOrder V] (rows : List (RawRow (Option V))) : List (RawRow ℤ) :=
  let us := categoricalCodes (rows.map RawRow.user)
  let is := categoricalCodes (rows.map RawRow.item)
  (rows.zip (us.zip is)).map fun x => ⟨x.2.1, x.2.2, x.1.ts⟩

/-- prepare_data.py:56-76 `prepare_amazon` and 77-96 `prepare_steam` (they differ in file and column
names only). A missing value of a column is `none`; `read_csv` also reads names such as `NA` as missing. -/
def prepareEncoded [One K] {V : Type} [LinearOrder V]
    (sortTs : List (RawRow (Option V)) → List (RawRow (Option V))) (data : List (RawRow (Option V))) :
    List (IRow K) :=
  preparedRows (encodeRaw (sortTs data))

/-! ### `print_recsys_df_stats` -/

/-- `np.round(x, 2)` -/
def npRound2 (x : ℚ) : ℚ := (roundHalfEven (x * 100) : ℚ) / 100

/-- `Series.median()` of a non-empty list of numbers -/
def medianOf (l : List ℕ) : ℚ :=
  let s := stableSort (fun a b => decide (a ≤ b)) l
  ((s.getD ((s.length - 1) / 2) 0 : ℚ) + s.getD (s.length / 2) 0) / 2

/-- The entries of the saved series. -/
structure RecsysStats where
  nUsers : ℕ
  nItems : ℕ
  nDates : ℕ
  nInteractions : ℕ
  nItemsMean : ℚ
  nItemsMedian : ℚ
  density : ℚ
  deriving DecidableEq

/-- data_preparation.py:83-112 `print_recsys_df_stats`: the saved numbers. On an empty table the density is
`0 / 0` in Python integers: `ZeroDivisionError`. -/
def printRecsysDfStats (df : List (Row K)) : PyM RecsysStats :=
  let users := pdUnique (df.map Row.user)
  let items := pdUnique (df.map Row.item)
  let counts := users.map fun u => (df.filter fun r => decide (r.user = u)).length
  if users.length * items.length = 0 then .error .zeroDivisionError
  else .ok
    { nUsers := users.length
      nItems := items.length
      nDates := (pdUnique (df.map Row.day)).length
      nInteractions := df.length
      nItemsMean := npRound2 ((counts.sum : ℚ) / counts.length)
      nItemsMedian := npRound2 (medianOf counts)
      density := npRound2 ((df.length : ℚ) / (users.length * items.length) * 100) }

/-! ### `save_data_dynamics` -/

/-- prepare_data.py:104-122 `save_data_dynamics` for one data set, from the table `left_data`: the numbers of
distinct users and of interactions per day. `[…][-1]` of an empty array raises `IndexError`. -/
def saveDataDynamics (left : List (Row K)) (howMany : ℤ) : PyM (List ℕ × List ℕ) :=
  match (sliceTo (groupDays left) howMany).getLast? with
  | none => .error .indexError
  | some target =>
    let groups := groupByDay (left.filter fun r => decide (r.day < target))
    .ok (groups.map fun g => (pdUnique (g.2.map Row.user)).length, groups.map fun g => g.2.length)

/-! ### `load_steam` -/

/-- A review: user name and product id as numbers, and the calendar day it was posted. -/
structure SteamRow where
  user : ℤ
  item : ℤ
  date : ℤ
  deriving DecidableEq

/-- `drop_duplicates(subset=['username', 'product_id'], keep='last')` -/
def dropDuplicatesLast : List SteamRow → List SteamRow
  | [] => []
  | r :: l =>
    if l.any fun x => decide (x.user = r.user ∧ x.item = r.item) then dropDuplicatesLast l
    else r :: dropDuplicatesLast l

/-- load_data.py:99-120 `load_steam` (at most `fuel` rounds of the loop in `pcore_filter`); dates without
time of day become the seconds at midnight. -/
def loadSteam (fuel : ℕ) (data : List SteamRow) : Option (List (RawRow ℤ)) :=
  (pcoreFilter SteamRow.user SteamRow.item 5 fuel (dropDuplicatesLast data)).map fun l =>
    l.map fun r => ⟨r.user, r.item, r.date * 86400⟩

end DynCF
