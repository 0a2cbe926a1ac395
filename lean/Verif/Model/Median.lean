import Mathlib.Order.Defs.LinearOrder
/-
Model of `modm::filter::Median<T, N>` for N = 3, 5, 7, 9 (src/modm/math/filter/median_{3,5,7,9}_impl.hpp and the
comparator macro in median_impl.hpp:19-20). `T` is any linearly ordered type with decidable order; floating-point
NaN is outside the model. Arrays are lists of length N.
-/
set_option autoImplicit false
namespace Modm.Median
universe u
variable {T : Type u} [LinearOrder T]

/-- Members of every specialisation (median_3_impl.hpp:37-39, median_7_impl.hpp:34-36). -/
structure M (T : Type u) where
  index : Nat
  buffer : List T
  sorted : List T

/-- Constructor (median_3_impl.hpp:46-53, median_5_impl.hpp:46-53, median_7_impl.hpp:43-50, median_9_impl.hpp:43-50). -/
def init (n : Nat) (v : T) : M T := ⟨0, List.replicate n v, List.replicate n v⟩

/-- `MODM_MEDIAN_SORT(sorted[i], sorted[j])` (median_impl.hpp:19-20): swap when the first is greater. -/
def sortAt (l : List T) (c : Nat × Nat) : List T :=
  match l[c.1]?, l[c.2]? with
  | some a, some b => if a > b then (l.set c.1 b).set c.2 a else l
  | _, _ => l

/-- Comparators of `update` (median_3_impl.hpp:73-75). -/
def net3 : List (Nat × Nat) := [(0,1), (1,2), (0,1)]
/-- median_5_impl.hpp:73-79 -/
def net5 : List (Nat × Nat) := [(0,1), (3,4), (0,3), (1,4), (1,2), (2,3), (1,2)]
/-- median_7_impl.hpp:77-89 -/
def net7 : List (Nat × Nat) :=
  [(0,5), (0,3), (1,6), (2,4), (0,1), (3,5), (2,6), (2,3), (3,6), (4,5), (1,4), (1,3), (3,4)]
/-- median_9_impl.hpp:76-94 -/
def net9 : List (Nat × Nat) :=
  [(1,2), (4,5), (7,8), (0,1), (3,4), (6,7), (1,2), (4,5), (7,8), (0,3), (5,8), (4,7), (3,6), (1,4), (2,5), (4,7),
   (4,2), (6,4), (4,2)]

/-- write to the ring buffer (median_3_impl.hpp:59-62, median_7_impl.hpp:67-70) -/
def ring (n : Nat) (x : M T) (v : T) : M T :=
  { x with buffer := x.buffer.set x.index v, index := if x.index + 1 ≥ n then 0 else x.index + 1 }

/-- `append` for N = 3, 5 (median_3_impl.hpp:57-63, median_5_impl.hpp:57-63). -/
def appendSmall (n : Nat) (x : M T) (v : T) : M T := ring n x v

/-- `update` for N = 3, 5: copy and sort (median_3_impl.hpp:67-76, median_5_impl.hpp:67-80). -/
def updateSmall (net : List (Nat × Nat)) (x : M T) : M T := { x with sorted := net.foldl sortAt x.buffer }

/-- the search loop of `append` (median_7_impl.hpp:59-65): replace the first occurrence -/
def replaceFirst (old new : T) : List T → List T
  | [] => []
  | a :: l => if a = old then new :: l else a :: replaceFirst old new l

/-- `append` for N = 7, 9 (median_7_impl.hpp:54-71, median_9_impl.hpp:54-70); out-of-range index is unreachable. -/
def appendBig (n : Nat) (x : M T) (v : T) : M T :=
  match x.buffer[x.index]? with
  | none => x
  | some old => ring n { x with sorted := replaceFirst old v x.sorted } v

/-- `update` for N = 7, 9: partial sort in place (median_7_impl.hpp:75-90, median_9_impl.hpp:74-95). -/
def updateBig (net : List (Nat × Nat)) (x : M T) : M T := { x with sorted := net.foldl sortAt x.sorted }

/-- `append` and `update` of `Median<T, n>` -/
def append (n : Nat) (x : M T) (v : T) : M T := if n ≤ 5 then appendSmall n x v else appendBig n x v
def net (n : Nat) : List (Nat × Nat) := if n = 3 then net3 else if n = 5 then net5 else if n = 7 then net7 else net9
def update (n : Nat) (x : M T) : M T := if n ≤ 5 then updateSmall (net n) x else updateBig (net n) x

/-- `getValue` (median_3_impl.hpp:80-83, 5: 84-87, 7: 94-97, 9: 99-102): the middle element -/
def getValue (n : Nat) (x : M T) : Option T := x.sorted[n / 2]?

/-- a call of the interface -/
inductive Call (T : Type u)
  | append (v : T)
  | update

/-- run a call history -/
def run (n : Nat) (x : M T) : List (Call T) → M T
  | [] => x
  | .append v :: cs => run n (append n x v) cs
  | .update :: cs => run n (update n x) cs

end Modm.Median
