import Mathlib.Logic.Function.Basic
import Verif.Model.Person

/-!
# Comparing persons

`Person.__gt__` (person.py:423-425) and what Python makes of it: the other comparisons, `max`, `min` and
`sorted`. Persons are told apart by numbers; reading a person's gross income stores it with the person
(ledger/recorded_property.py), so that all of these take and give back the persons as they are.
-/

namespace Forecaster.Person

open Forecaster

variable {K : Type} [Field K] [LinearOrder K] [IsStrictOrderedRing K]

/-- `people[i] > people[j]` (person.py:423-425). -/
def greater (w : ℕ → Earner K) (i j : ℕ) : Except PyErr (Bool × (ℕ → Earner K)) := do
  let a ← grossIncome (w i)
  let w1 := Function.update w i a.2
  let b ← grossIncome (w1 j)
  .ok (decide (b.1 < a.1), Function.update w1 j b.2)

/-- The four comparisons that `Person` does not take from `object` unchanged or has itself. -/
inductive Comparison
  | gt | lt | ge | le

/-- A person, or anything that has no `gross_income` and cannot be compared with a person. -/
inductive Operand
  | person (i : ℕ)
  | thing

/-- A comparison of two objects, one of them a person (person.py:423-425). Only `__gt__` is defined: Python
asks the right operand for `>` if it is asked for `<`, and finds nothing for `>=` and `<=`. -/
def compare (w : ℕ → Earner K) : Comparison → Operand → Operand → Except PyErr (Bool × (ℕ → Earner K))
  | .gt, .person i, .person j => greater w i j
  | .lt, .person i, .person j => greater w j i
  | .gt, .person i, .thing => do
    let _ ← grossIncome (w i)
    .error .attributeError
  | .lt, .thing, .person j => do
    let _ ← grossIncome (w j)
    .error .attributeError
  | _, _, _ => .error .typeError

/-- `max` of persons, given the largest one so far (person.py:423-425): `item > largest` is asked. -/
def maxFrom (w : ℕ → Earner K) (m : ℕ) : List ℕ → Except PyErr (ℕ × (ℕ → Earner K))
  | [] => .ok (m, w)
  | x :: l => do
    let r ← greater w x m
    maxFrom r.2 (if r.1 then x else m) l

/-- `max(people)` (person.py:423-425). -/
def maxOf (w : ℕ → Earner K) : List ℕ → Except PyErr (ℕ × (ℕ → Earner K))
  | [] => .error .valueError
  | x :: l => maxFrom w x l

/-- `min` of persons, given the smallest one so far (person.py:423-425): `item < smallest` is asked, which
is `smallest > item`. -/
def minFrom (w : ℕ → Earner K) (m : ℕ) : List ℕ → Except PyErr (ℕ × (ℕ → Earner K))
  | [] => .ok (m, w)
  | x :: l => do
    let r ← greater w m x
    minFrom r.2 (if r.1 then x else m) l

/-- `min(people)` (person.py:423-425). -/
def minOf (w : ℕ → Earner K) : List ℕ → Except PyErr (ℕ × (ℕ → Earner K))
  | [] => .error .valueError
  | x :: l => minFrom w x l

/-- Put a person before the first larger one (`x < y` is `y > x`, person.py:423-425). -/
def insertInto (w : ℕ → Earner K) (x : ℕ) : List ℕ → Except PyErr (List ℕ × (ℕ → Earner K))
  | [] => .ok ([x], w)
  | y :: l => do
    let r ← greater w y x
    if r.1 then .ok (x :: y :: l, r.2)
    else do
      let s ← insertInto r.2 x l
      .ok (y :: s.1, s.2)

/-- `sorted(people)` (person.py:423-425), with persons already sorted. Simplified: Python's merge sort makes
fewer comparisons than this insertion sort; both are stable, and comparisons do not change incomes. -/
def sortFrom (w : ℕ → Earner K) (done : List ℕ) : List ℕ → Except PyErr (List ℕ × (ℕ → Earner K))
  | [] => .ok (done, w)
  | x :: l => do
    let r ← insertInto w x done
    sortFrom r.2 r.1 l

end Forecaster.Person
