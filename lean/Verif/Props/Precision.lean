import Verif.Model.Precision
import Mathlib.Data.List.Induction
import Mathlib.Data.Int.Notation
import Mathlib.Data.Nat.Notation

/-!
# Properties of high-precision properties (C47)
-/

namespace Forecaster.Precision

open Forecaster

variable {O C V : Type} [DecidableEq O] [DecidableEq C]

/-! ## Specification: the history says what an object's property is worth -/

/-- The last value written to `o` (`none`: never written). -/
def lastWrite (o : O) : List (Op O C V) → Option (Option V)
  | [] => none
  | .write o' v :: ops =>
    match lastWrite o ops with
    | some w => some w
    | none => if o' = o then some v else none
  | _ :: ops => lastWrite o ops

/-- The last conversion given to `o` (`none`: never given). -/
def lastPrecision (o : O) : List (Op O C V) → Option (Option C)
  | [] => none
  | .precision o' c :: ops =>
    match lastPrecision o ops with
    | some w => some w
    | none => if o' = o then some c else none
  | _ :: ops => lastPrecision o ops

/-- What reading the property of `o` should give: the last value written to *this* object, converted
by *its* conversion if it has one. -/
def expected (convert : C → V → V) (o : O) (ops : List (Op O C V)) : Except PyErr (Option V) :=
  match lastWrite o ops, lastPrecision o ops with
  | some v, some none => .ok v
  | some v, some (some c) => .ok (v.map (convert c))
  | _, _ => .error .attributeError

/-! ## Helpers -/

theorem foldl_value (convert : C → V → V) (o : O) (ops : List (Op O C V)) (s : State O C V) :
    (ops.foldl (step convert) s).value o = (lastWrite o ops <|> s.value o) ∧
    (ops.foldl (step convert) s).highPrecision o = (lastPrecision o ops <|> s.highPrecision o) := by
  induction ops generalizing s with
  | nil => simp [lastWrite, lastPrecision]
  | cons op ops ih =>
    obtain ⟨h1, h2⟩ := ih (step convert s op)
    simp only [List.foldl_cons]
    rw [h1, h2]
    cases op with
    | read o' =>
      simp only [step, lastWrite, lastPrecision, getCached]
      constructor <;> (repeat' split) <;> rfl
    | write o' v =>
      simp only [step, setCached, set, lastWrite, lastPrecision, Function.update_apply]
      constructor
      · cases lastWrite o ops with
        | some w => simp
        | none =>
          by_cases h : o' = o
          · simp [h]
          · simp [h, Ne.symm h]
      · trivial
    | precision o' c =>
      simp only [step, lastWrite, lastPrecision, Function.update_apply]
      constructor
      · trivial
      · cases lastPrecision o ops with
        | some w => simp
        | none =>
          by_cases h : o' = o
          · simp [h]
          · simp [h, Ne.symm h]

theorem run_value (convert : C → V → V) (o : O) (ops : List (Op O C V)) :
    (run convert ops).value o = lastWrite o ops ∧
    (run convert ops).highPrecision o = lastPrecision o ops := by
  have := foldl_value convert o ops start
  simpa [run, start] using this

/-! ## C47 -/

/-- **C47.** The property without a cache always returns this object's own value: for any history
of reads, writes and changes of conversion on any number of objects. -/
theorem C47_uncached_is_right (convert : C → V → V) (ops : List (Op O C V)) (o : O) :
    get convert (run convert ops) o = expected convert o ops := by
  obtain ⟨h1, h2⟩ := run_value convert o ops
  unfold get expected
  rw [h1, h2]
  cases lastWrite o ops with
  | none => rfl
  | some v =>
    cases hp : lastPrecision o ops with
    | none => rfl
    | some c => cases c <;> rfl

/-- **C47.** The cached property is right for every object that uses no conversion (the default),
whatever happens to other objects. -/
theorem C47_cached_right_without_conversion (convert : C → V → V) (ops : List (Op O C V)) (o : O)
    (h : lastPrecision o ops = some none) :
    (getCached convert (run convert ops) o).1 = expected convert o ops := by
  obtain ⟨h1, h2⟩ := run_value convert o ops
  unfold getCached expected
  rw [h1, h2, h]
  cases lastWrite o ops <;> rfl

/-- What the cache holds: the value some object had when it was last read, after the last write. -/
theorem run_cache (convert : C → V → V) (ops : List (Op O C V)) (v : V) (c : C)
    (h : (run convert ops).cachedValue = some v) (hc : (run convert ops).cachedConv = some c) :
    ∃ o, Op.read o ∈ ops ∧ ∃ w, (run convert ops).value o = some (some w) ∧ v = convert c w := by
  unfold run at h hc ⊢
  induction ops using List.reverseRecOn generalizing v c with
  | nil => simp [start] at h
  | append_singleton ops op ih =>
    simp only [List.foldl_append, List.foldl_cons, List.foldl_nil] at h hc ⊢
    generalize hs : ops.foldl (step convert) start = s at *
    cases op with
    | write o w => simp [step, setCached] at h
    | precision o c' =>
      obtain ⟨o', hr, w, hw⟩ := ih v c h hc
      exact ⟨o', by simp [hr], w, hw⟩
    | read o =>
      simp only [step, getCached] at h hc ⊢
      cases hp : s.highPrecision o with
      | none =>
        simp only [hp] at h hc ⊢
        obtain ⟨o', hr, w, hw⟩ := ih v c h hc
        exact ⟨o', by simp [hr], w, hw⟩
      | some oc =>
        cases oc with
        | none =>
          simp only [hp] at h hc ⊢
          cases hv : s.value o with
          | none =>
            simp only [hv] at h hc ⊢
            obtain ⟨o', hr, w, hw⟩ := ih v c h hc
            exact ⟨o', by simp [hr], w, hw⟩
          | some x =>
            simp only [hv] at h hc ⊢
            obtain ⟨o', hr, w, hw⟩ := ih v c h hc
            exact ⟨o', by simp [hr], w, hw⟩
        | some c' =>
          simp only [hp] at h hc ⊢
          split at h
          · rename_i hcache
            simp only [hcache, and_self, if_true] at h hc ⊢
            obtain ⟨o', hr, w, hw⟩ := ih v c (by simpa using h) (by rw [hcache.2]; simpa using hc)
            exact ⟨o', by simp [hr], w, hw⟩
          · rename_i hcache
            rw [if_neg hcache] at hc ⊢
            cases hv : s.value o with
            | none =>
              simp only [hv] at h hc ⊢
              obtain ⟨o', hr, w, hw⟩ := ih v c h hc
              exact ⟨o', by simp [hr], w, hw⟩
            | some x =>
              simp only [hv] at h hc ⊢
              cases x with
              | none => simp at h
              | some x =>
                simp only [Option.map_some, Option.some.injEq] at h hc
                exact ⟨o, by simp, x, hv, by rw [← h, ← hc]⟩

/-- **C47.** The cached property is right for `o` as long as no *other* object's property has been
read. In particular it is right for a class with a single instance. -/
theorem C47_cached_right_for_a_single_reader (convert : C → V → V) (ops : List (Op O C V)) (o : O)
    (honly : ∀ o', Op.read o' ∈ ops → o' = o) (hset : (lastWrite o ops).isSome) :
    (getCached convert (run convert ops) o).1 = expected convert o ops := by
  obtain ⟨h1, h2⟩ := run_value convert o ops
  have hcache := run_cache convert ops
  unfold getCached expected
  rw [h1, h2]
  obtain ⟨v, hv⟩ := Option.isSome_iff_exists.mp hset
  rw [hv]
  cases hp : lastPrecision o ops with
  | none => rfl
  | some c =>
    cases c with
    | none => rfl
    | some c =>
      simp only
      split
      · rename_i hc
        obtain ⟨x, hx⟩ := Option.isSome_iff_exists.mp hc.1
        obtain ⟨o', hr, w, hw, rfl⟩ := hcache x c hx hc.2
        have := honly o' hr
        subst this
        rw [h1, hv] at hw
        injection hw with hw
        simp [hx, hw]
      · rfl

/-- **C47.** Reading right after writing (to any object) is right. -/
theorem C47_read_after_write (convert : C → V → V) (ops : List (Op O C V)) (o o' : O) (v : Option V)
    (hset : (lastWrite o (ops ++ [.write o' v])).isSome) :
    (getCached convert (run convert (ops ++ [.write o' v])) o).1 =
      expected convert o (ops ++ [.write o' v]) := by
  obtain ⟨h1, h2⟩ := run_value convert o (ops ++ [.write o' v])
  have hc : (run convert (ops ++ [.write o' v])).cachedValue = none := by
    simp [run, step, setCached]
  obtain ⟨w, hw⟩ := Option.isSome_iff_exists.mp hset
  unfold getCached expected
  rw [h1, h2, hc, hw]
  cases lastPrecision o (ops ++ [.write o' v]) with
  | none => rfl
  | some c => cases c <;> simp

/-- **C47.** (The defect.) In general the cached property is wrong: the cache belongs to the class.
With two objects that use the same conversion, whose values convert differently, reading one and
then the other returns the first object's value for the second. -/
theorem C47_cached_leaks_between_objects (convert : C → V → V) (o₁ o₂ : O) (hne : o₁ ≠ o₂) (c : C)
    (v₁ v₂ : V) (hv : convert c v₁ ≠ convert c v₂) :
    let ops : List (Op O C V) := [.precision o₁ (some c), .write o₁ (some v₁),
      .precision o₂ (some c), .write o₂ (some v₂), .read o₁]
    (getCached convert (run convert ops) o₂).1 = .ok (some (convert c v₁)) ∧
      expected convert o₂ ops = .ok (some (convert c v₂)) ∧
      (getCached convert (run convert ops) o₂).1 ≠ expected convert o₂ ops := by
  have h1 : expected convert o₂ ([.precision o₁ (some c), .write o₁ (some v₁),
      .precision o₂ (some c), .write o₂ (some v₂), .read o₁] : List (Op O C V)) =
      .ok (some (convert c v₂)) := by
    simp [expected, lastWrite, lastPrecision]
  have h2 : (getCached convert (run convert ([.precision o₁ (some c), .write o₁ (some v₁),
      .precision o₂ (some c), .write o₂ (some v₂), .read o₁] : List (Op O C V))) o₂).1 =
      .ok (some (convert c v₁)) := by
    simp [run, start, step, getCached, setCached, set, hne]
  refine ⟨h2, h1, ?_⟩
  rw [h1, h2]
  simpa using hv

/-! ## Examples -/

/-- A history of one object with a conversion (negation) and another without. -/
def exOps : List (Op ℕ Unit ℤ) :=
  [.precision 0 (some ()), .write 0 (some 5), .precision 1 none, .write 1 (some 7), .read 0, .read 0]

example : (getCached (fun _ v => -v) (run (fun _ v => -v) exOps) 0).1 = .ok (some (-5)) := by decide +kernel
example : (getCached (fun _ v => -v) (run (fun _ v => -v) exOps) 1).1 = .ok (some 7) := by decide +kernel
example : (∀ o', Op.read o' ∈ exOps → o' = 0) ∧ (lastWrite 0 exOps).isSome := by
  constructor
  · intro o' h; simpa [exOps] using h
  · decide
example : lastPrecision 1 exOps = some none := by decide

end Forecaster.Precision
