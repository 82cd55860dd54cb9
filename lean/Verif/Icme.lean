import Verif.PyStr
import Mathlib.Data.List.Perm.Basic
import Mathlib.Data.Rat.Defs
import Mathlib.Algebra.Order.Field.Rat

/-!
# Model: ICME catalogue (solar_activity/icme/icmecat.py)

Times are integers (ticks); `none` is NaT. `day24 > 0` ticks are 24 hours.
-/

namespace SW
namespace Icme

/-- one row of the catalogue (only the columns used by the queries); `craft = none` is a missing name (NaN) -/
structure Event where
  id : String
  craft : Option String
  start : Option Int
  moStart : Option Int
  moEnd : Option Int
  deriving DecidableEq

/-- 24 hours in ticks (seconds) -/
def day24 : Int := 86400

/-- icmecat.py:271-290 `interval_end` of one row (all three time columns present in the catalogue) -/
def intervalEnd (e : Event) : Option Int :=
  let a := e.moEnd
  let b := if a.isNone then e.moStart.map (· + day24) else a
  if b.isNone then e.start.map (· + day24) else b

/-- comparison with NaT is False -/
def leOpt : Option Int → Option Int → Bool
  | some a, some b => decide (a ≤ b)
  | _, _ => false

/-- icmecat.py:296-316 `get_events_in_range` -/
def eventsInRange (cat : List Event) (start stop : Option Int) : List Event :=
  cat.filter (fun e => leOpt e.start stop && leOpt start (intervalEnd e))

/-- icmecat.py:126-129 `strict_intervals` -/
def strict (cat : List Event) : List Event := cat.filter (fun e => e.moEnd.isSome)

/-- numpy orders NaT after every time -/
def natLe : Option Int → Option Int → Prop
  | some a, some b => a ≤ b
  | some _, none => True
  | none, some _ => False
  | none, none => True

instance : DecidableRel natLe := fun a b => by unfold natLe; cases a <;> cases b <;> simp only <;> infer_instance

/-- `np.searchsorted(sorted, t, side="right")` on a sorted array: number of leading entries not after `t` -/
def searchRight (s : List (Option Int)) (t : Option Int) : Nat := (s.takeWhile (fun a => decide (natLe a t))).length

/-- icmecat.py:353-365: the test for one time, given the pairs (start, end) in the order of `np.argsort(starts)` -/
def containsOne (sorted : List (Option Int × Option Int)) (t : Option Int) : Bool :=
  let idx := searchRight (sorted.map Prod.fst) t
  decide (0 < idx) && ((sorted.map Prod.snd).take idx).any (fun e => leOpt t e)

/-- the order chosen by `np.argsort` (quicksort: ties in any order) -/
structure Argsort where
  sort : List (Option Int × Option Int) → List (Option Int × Option Int)
  perm : ∀ l, (sort l).Perm l
  sorted : ∀ l, (sort l).Pairwise (fun a b => natLe a.1 b.1)

/-- icmecat.py:318-367 `contains` (values only; the index is that of `times`) -/
def contains (A : Argsort) (cat : List Event) (times : List (Option Int)) : List Bool :=
  if times.length = 0 then []
  else if cat.length = 0 then times.map (fun _ => false)
  else if (strict cat).length = 0 then times.map (fun _ => false)
  else
    let sorted := A.sort ((strict cat).map (fun e => (e.start, e.moEnd)))
    times.map (fun t => containsOne sorted t)

/-! ### Filter -/

/-- `unique()`: first occurrences -/
def unique : List String → List String
  | [] => []
  | a :: l => a :: (unique l).filter (fun b => b ≠ a)

/-- icmecat.py:195-202, 229-234 the map from lower-case to catalogue names; later names overwrite earlier ones -/
def nameMap (low : String → String) (names : List String) (key : String) : Option String :=
  names.reverse.find? (fun n => low n = key)

/-- icmecat.py:193-213 and 215-244 `filter` with Python's `str.lower` as `low`; a missing name (NaN) has no `lower` method -/
def filterCraft (low : String → String) (name : String) (cat : List Event) : Except PyErr (List Event) :=
  match cat.mapM (fun e => e.craft) with
  | none => .error .attributeError
  | some names =>
    let actual := (nameMap low (unique names) (low name)).getD name
    .ok (cat.filter (fun e => e.craft = some actual))

/-! ### Cache -/

/-- a cache file: modification time and contents (`none`: not readable as parquet) -/
structure CacheFile where
  mtime : Int
  content : Option (List Event)

inductive LoadErr where
  | network
  | corrupt
  deriving DecidableEq

/-- icmecat.py:164-168: 30 days, in ticks (seconds) -/
def maxAge : Int := 30 * 86400

/-- icmecat.py:145-187 `_load_data` at time `now`: the server's answer (`none`: failure), with or without a cache directory.
Returns the cache after the call, the data and whether the server was asked. Times are whole ticks. -/
def load (cacheDir : Bool) (now : Int) (server : Option (List Event)) (file : Option CacheFile) :
    Option CacheFile × Except LoadErr (List Event) × Bool :=
  let fresh : Option CacheFile := if cacheDir then file.filter (fun f => ¬ maxAge < now - f.mtime) else none
  match fresh with
  | some f =>
    match f.content with
    | some d => (file, .ok d, false)
    | none => (file, .error .corrupt, false)
  | none =>
    match server with
    | none => (file, .error .network, true)
    | some d => (if cacheDir then some ⟨now, some d⟩ else file, .ok d, true)

/-- a crash while the cache file is written (icmecat.py:186 writes in place) -/
def crashInWrite (now : Int) : Option CacheFile := some ⟨now, none⟩

/-! ### Summary -/

/-- the entries of `summary` that are counts and dates -/
structure Summary where
  nEvents : Nat
  nStrict : Nat
  first : Option Int
  last : Option Int
  spacecraft : Option String

def minOpt (l : List (Option Int)) : Option Int := (l.filterMap id).min?
def maxOpt (l : List (Option Int)) : Option Int := (l.filterMap id).max?

/-- icmecat.py:373-418 `summary` without the duration statistics -/
def summary (craft : Option String) (cat : List Event) : Summary :=
  let sc := craft.filter (fun s => s ≠ "")
  if cat.length = 0 then ⟨0, 0, none, none, sc⟩
  else ⟨cat.length, (strict cat).length, minOpt (cat.map Event.start), maxOpt (cat.map intervalEnd), sc⟩

/-- icmecat.py:401-402 durations (ticks) -/
def durations (cat : List Event) : List Int :=
  cat.filterMap (fun e => match intervalEnd e, e.start with | some b, some a => some (b - a) | _, _ => none)

end Icme
end SW
