import Verif.Model.Tax
import Verif.Lemmas.Dict
import Mathlib.Tactic.Linarith
import Mathlib.Tactic.Ring
import Mathlib.Tactic.FieldSimp

/-!
# Lemmas about tax tables
-/

set_option linter.unusedSectionVars false

namespace Forecaster.Tax

open Forecaster Forecaster.Inflation

variable {K : Type} [Field K] [LinearOrder K] [IsStrictOrderedRing K]

/-- **Specification.** Tax on income `x` under brackets `(threshold, rate)` listed by increasing
threshold: the part of the income between a threshold and the next one is taxed at the rate of
the former; the part above the last threshold at its rate. -/
def bracketTax : List (K × K) → K → K
  | [], _ => 0
  | [(b, r)], x => r * max (x - b) 0
  | (b, r) :: (b', r') :: rest, x => r * max (min x b' - b) 0 + bracketTax ((b', r') :: rest) x

/-- **Specification.** The table's brackets in increasing order of threshold. -/
def ascending (B : Dict K K) : List (K × K) :=
  ((Dict.keys B).insertionSort (· ≤ ·)).map fun b => (b, Dict.val B b)

theorem sort_pairwise (l : List K) : (l.insertionSort (· ≤ ·)).Pairwise (· ≤ ·) :=
  List.pairwise_insertionSort _ _

theorem ascending_sorted {B : Dict K K} (h : Dict.WF B) :
    (ascending B).Pairwise fun p q => p.1 < q.1 := by
  unfold ascending
  rw [List.pairwise_map]
  have h1 := sort_pairwise (Dict.keys B)
  have h2 : ((Dict.keys B).insertionSort (· ≤ ·)).Nodup :=
    (List.perm_insertionSort _ _).nodup_iff.2 h
  exact (h1.and h2).imp fun h => lt_of_le_of_ne h.1 h.2

theorem mem_ascending {B : Dict K K} (h : Dict.WF B) {p : K × K} : p ∈ ascending B ↔ p ∈ B := by
  unfold ascending
  rw [List.mem_map]
  constructor
  · rintro ⟨b, hb, rfl⟩
    rw [(List.perm_insertionSort _ _).mem_iff] at hb
    obtain ⟨v, hv⟩ := Dict.mem_keys_iff.1 hb
    have := Dict.mem_of_get? hv
    simpa [Dict.val, hv] using this
  · intro hp
    refine ⟨p.1, ?_, ?_⟩
    · rw [(List.perm_insertionSort _ _).mem_iff]; exact Dict.mem_keys_of_mem hp
    · have := Dict.get?_of_mem h (k := p.1) (v := p.2) hp
      simp [Dict.val, this]

theorem pos_part_split {x b b' : K} (h : b ≤ b') :
    max (x - b) 0 = max (min x b' - b) 0 + max (x - b') 0 := by
  rcases le_total x b' with h1 | h1
  · rw [min_eq_left h1, max_eq_right (a := x - b') (by linarith), add_zero]
  · rw [min_eq_right h1, max_eq_left (a := x - b) (by linarith),
      max_eq_left (a := b' - b) (by linarith), max_eq_left (a := x - b') (by linarith)]
    ring

/-- Rate increments applied to the excess over each threshold. -/
def incTax : K → List (K × K) → K → K
  | _, [], _ => 0
  | prev, (b, r) :: rest, x => (r - prev) * max (x - b) 0 + incTax r rest x

theorem bracketTax_inc (b r : K) (rest : List (K × K)) (x : K)
    (hs : ((b, r) :: rest).Pairwise fun p q => p.1 < q.1) :
    bracketTax ((b, r) :: rest) x = r * max (x - b) 0 + incTax r rest x := by
  induction rest generalizing b r with
  | nil => simp [bracketTax, incTax]
  | cons q rest ih =>
    obtain ⟨b', r'⟩ := q
    have hlt : b < b' := (List.pairwise_cons.1 hs).1 (b', r') (by simp)
    rw [bracketTax, ih b' r' (List.pairwise_cons.1 hs).2, incTax, pos_part_split (x := x) hlt.le]
    ring

theorem bracketTax_cons (b r : K) (rest : List (K × K)) (x : K) (h : x ≤ b)
    (hs : ((b, r) :: rest).Pairwise fun p q => p.1 < q.1) :
    bracketTax ((b, r) :: rest) x = 0 := by
  induction rest generalizing b r with
  | nil => simp [bracketTax, max_eq_right (sub_nonpos.2 h)]
  | cons q rest ih =>
    obtain ⟨b', r'⟩ := q
    have hlt : b < b' := (List.pairwise_cons.1 hs).1 (b', r') (by simp)
    rw [bracketTax, ih b' r' (h.trans hlt.le) (List.pairwise_cons.1 hs).2,
      min_eq_left (h.trans hlt.le), max_eq_right (sub_nonpos.2 h)]
    simp

theorem bracketTax_mono (L : List (K × K)) (hr : ∀ p ∈ L, 0 ≤ p.2) {x y : K} (h : x ≤ y) :
    bracketTax L x ≤ bracketTax L y := by
  induction L with
  | nil => simp [bracketTax]
  | cons p L ih =>
    obtain ⟨b, r⟩ := p
    have h0 : 0 ≤ r := hr (b, r) (by simp)
    have ih := ih fun q hq => hr q (by simp [hq])
    cases L with
    | nil =>
      simp only [bracketTax]
      exact mul_le_mul_of_nonneg_left (max_le_max (by linarith) le_rfl) h0
    | cons q L =>
      obtain ⟨b', r'⟩ := q
      rw [bracketTax, bracketTax]
      have : min x b' ≤ min y b' := min_le_min h le_rfl
      exact add_le_add (mul_le_mul_of_nonneg_left (max_le_max (by linarith) le_rfl) h0) ih

theorem bracketTax_nonneg (L : List (K × K)) (hr : ∀ p ∈ L, 0 ≤ p.2) (x : K) :
    0 ≤ bracketTax L x := by
  induction L with
  | nil => simp [bracketTax]
  | cons p L ih =>
    obtain ⟨b, r⟩ := p
    have h0 : 0 ≤ r := hr (b, r) (by simp)
    have ih := ih fun q hq => hr q (by simp [hq])
    cases L with
    | nil => exact mul_nonneg h0 (le_max_right _ _)
    | cons q L =>
      obtain ⟨b', r'⟩ := q
      rw [bracketTax]
      exact add_nonneg (mul_nonneg h0 (le_max_right _ _)) ih

theorem bracketTax_lip (b r : K) (L : List (K × K)) (R : K)
    (hs : ((b, r) :: L).Pairwise fun p q => p.1 < q.1)
    (hR : ∀ p ∈ (b, r) :: L, p.2 ≤ R) {x y : K} (h : x ≤ y) :
    bracketTax ((b, r) :: L) y - bracketTax ((b, r) :: L) x
      ≤ R * (max (y - b) 0 - max (x - b) 0) := by
  induction L generalizing b r with
  | nil =>
    simp only [bracketTax]
    have h1 : r ≤ R := hR (b, r) (by simp)
    have h2 : max (x - b) 0 ≤ max (y - b) 0 := max_le_max (by linarith) le_rfl
    nlinarith [mul_le_mul_of_nonneg_right h1 (sub_nonneg.2 h2)]
  | cons q L ih =>
    obtain ⟨b', r'⟩ := q
    have hlt : b < b' := (List.pairwise_cons.1 hs).1 (b', r') (by simp)
    have ih := ih b' r' (List.pairwise_cons.1 hs).2 fun p hp => hR p (by simp [hp])
    rw [bracketTax, bracketTax, pos_part_split (x := y) hlt.le, pos_part_split (x := x) hlt.le]
    have h1 : r ≤ R := hR (b, r) (by simp)
    have h2 : min x b' ≤ min y b' := min_le_min h le_rfl
    have h3 : max (min x b' - b) 0 ≤ max (min y b' - b) 0 := max_le_max (by linarith) le_rfl
    nlinarith [mul_le_mul_of_nonneg_right h1 (sub_nonneg.2 h3)]

theorem pos_part_convex {l x y b : K} (h0 : 0 ≤ l) (h1 : l ≤ 1) :
    max (l * x + (1 - l) * y - b) 0 ≤ l * max (x - b) 0 + (1 - l) * max (y - b) 0 := by
  have e1 := mul_le_mul_of_nonneg_left (le_max_left (x - b) 0) h0
  have e2 := mul_le_mul_of_nonneg_left (le_max_left (y - b) 0) (sub_nonneg.2 h1)
  have e3 := mul_nonneg h0 (le_max_right (x - b) 0)
  have e4 := mul_nonneg (sub_nonneg.2 h1) (le_max_right (y - b) 0)
  apply max_le
  · linarith
  · linarith

theorem incTax_convex (prev : K) (L : List (K × K))
    (hs : L.Pairwise fun p q => p.2 ≤ q.2) (hp : ∀ p ∈ L, prev ≤ p.2) {l x y : K}
    (h0 : 0 ≤ l) (h1 : l ≤ 1) :
    incTax prev L (l * x + (1 - l) * y) ≤ l * incTax prev L x + (1 - l) * incTax prev L y := by
  induction L generalizing prev with
  | nil => simp [incTax]
  | cons p L ih =>
    obtain ⟨b, r⟩ := p
    have hr : prev ≤ r := hp (b, r) (by simp)
    have ih := ih r (List.pairwise_cons.1 hs).2 fun q hq => (List.pairwise_cons.1 hs).1 q hq
    simp only [incTax]
    have := mul_le_mul_of_nonneg_left (pos_part_convex (x := x) (y := y) (b := b) h0 h1)
      (sub_nonneg.2 hr)
    nlinarith

theorem bracketTax_convex (L : List (K × K)) (hs : L.Pairwise fun p q => p.1 < q.1)
    (hr : L.Pairwise fun p q => p.2 ≤ q.2) (hn : ∀ p ∈ L, 0 ≤ p.2) {l x y : K}
    (h0 : 0 ≤ l) (h1 : l ≤ 1) :
    bracketTax L (l * x + (1 - l) * y) ≤ l * bracketTax L x + (1 - l) * bracketTax L y := by
  cases L with
  | nil => simp [bracketTax]
  | cons p L =>
    obtain ⟨b, r⟩ := p
    rw [bracketTax_inc _ _ _ _ hs, bracketTax_inc _ _ _ _ hs, bracketTax_inc _ _ _ _ hs]
    have e1 := mul_le_mul_of_nonneg_left (pos_part_convex (x := x) (y := y) (b := b) h0 h1)
      (hn (b, r) (by simp))
    have e2 := incTax_convex r L (List.pairwise_cons.1 hr).2 (List.pairwise_cons.1 hr).1
      (x := x) (y := y) h0 h1
    nlinarith

/-! ### The code's way of computing it -/

/-- Walk up the brackets as long as the threshold is below the income. -/
def walk : K → K → K → List (K × K) → K → K
  | p, rp, a, [], x => a + (x - p) * rp
  | p, rp, a, (b, r) :: rest, x =>
    if b < x then walk b r (a + (b - p) * rp) rest x else a + (x - p) * rp

theorem walk_eq (p rp a : K) (rest : List (K × K)) (x : K)
    (hs : ((p, rp) :: rest).Pairwise fun p q => p.1 < q.1) (hx : p ≤ x) :
    walk p rp a rest x = a + bracketTax ((p, rp) :: rest) x := by
  induction rest generalizing p rp a with
  | nil => simp only [walk, bracketTax]; rw [max_eq_left (by linarith)]; ring
  | cons q rest ih =>
    obtain ⟨b, r⟩ := q
    have hlt : p < b := (List.pairwise_cons.1 hs).1 (b, r) (by simp)
    rw [walk, bracketTax]
    split
    · next h =>
      rw [ih b r _ (List.pairwise_cons.1 hs).2 h.le, min_eq_right h.le,
        max_eq_left (by linarith)]
      ring
    · next h =>
      have h := not_lt.1 h
      rw [bracketTax_cons _ _ _ _ h (List.pairwise_cons.1 hs).2, min_eq_left h,
        max_eq_left (by linarith)]
      ring

/-- The accumulated amounts, as a list of `(threshold, accumulated)` pairs. -/
def accList : K → K → K → List (K × K) → List (K × K)
  | _, _, _, [] => []
  | p, rp, a, (b, r) :: rest => (b, (b - p) * rp + a) :: accList b r ((b - p) * rp + a) rest

theorem keys_accList (p rp a : K) (rest : List (K × K)) :
    Dict.keys (accList p rp a rest) = Dict.keys rest := by
  induction rest generalizing p rp a with
  | nil => rfl
  | cons q rest ih => obtain ⟨b, r⟩ := q; simp [accList, ih]

theorem foldl_accum (B : Dict K K) (ks : List K) (p a : K) (acc : Dict K K)
    (hp : Dict.val acc p = a)
    (hs : ks.Nodup) (hk : ∀ k ∈ ks, k ∉ Dict.keys acc) :
    (ks.foldl (accumStep B) (p, acc)).2
      = acc ++ accList p (Dict.val B p) a (ks.map fun b => (b, Dict.val B b)) := by
  induction ks generalizing p a acc with
  | nil => simp [accList]
  | cons b ks ih =>
    rw [List.foldl_cons]
    simp only [accumStep, hp, List.map_cons, accList]
    have hb : b ∉ Dict.keys acc := hk b (by simp)
    have hs' := List.nodup_cons.1 hs
    rw [ih b ((b - p) * Dict.val B p + a) _ _ hs'.2]
    · rw [Dict.set_of_not_mem _ hb, List.append_assoc, List.singleton_append]
    · intro k hkk hmem
      rcases Dict.mem_keys_set.1 hmem with h | h
      · subst h; exact hs'.1 hkk
      · exact hk k (by simp [hkk]) h
    · rw [Dict.val_set]; simp

/-- `accumTable` in list form. -/
theorem accumTable_eq {B : Dict K K} (hB : Dict.WF B) (hne : B ≠ []) :
    ∃ p rest, ascending B = (p, Dict.val B p) :: rest ∧
      accumTable B = .ok ((p, 0) :: accList p (Dict.val B p) 0 rest) := by
  have hnd : ((Dict.keys B).insertionSort (· ≤ ·)).Nodup :=
    (List.perm_insertionSort _ _).nodup_iff.2 hB
  have hlen : (Dict.keys B).insertionSort (· ≤ ·) ≠ [] := by
    intro h
    have := congrArg List.length h
    simp [Dict.keys] at this
    exact hne this
  unfold accumTable ascending
  match hsort : (Dict.keys B).insertionSort (· ≤ ·) with
  | [] => exact absurd hsort hlen
  | p :: rest =>
    rw [hsort] at hnd
    refine ⟨p, rest.map fun b => (b, Dict.val B b), rfl, ?_⟩
    simp only
    rw [foldl_accum B rest p 0 [(p, 0)] (by simp [Dict.val, Dict.get?]) (List.nodup_cons.1 hnd).2]
    · rfl
    · intro k hk hmem
      simp only [Dict.keys_cons, Dict.keys_nil, List.mem_singleton] at hmem
      subst hmem; exact (List.nodup_cons.1 hnd).1 hk

theorem max?_mem {l : List K} {m : K} (h : l.max? = some m) : m ∈ l ∧ ∀ x ∈ l, x ≤ m := by
  rw [List.max?_eq_some_iff] at h
  exact h

theorem min?_mem {l : List K} {m : K} (h : l.min? = some m) : m ∈ l ∧ ∀ x ∈ l, m ≤ x := by
  rw [List.min?_eq_some_iff] at h
  exact h

/-- `pickBracket` returns the greatest threshold below the income, or the least threshold. -/
theorem pickBracket_spec {B : Dict K K} {x b : K} (h : pickBracket B x = .ok b) :
    (b ∈ Dict.keys B ∧ b < x ∧ ∀ b' ∈ Dict.keys B, b' < x → b' ≤ b) ∨
    ((∀ b' ∈ Dict.keys B, x ≤ b') ∧ b ∈ Dict.keys B ∧ ∀ b' ∈ Dict.keys B, b ≤ b') := by
  unfold pickBracket at h
  cases h1 : ((Dict.keys B).filter fun b => decide (b < x)).max? with
  | some m =>
    rw [h1] at h
    simp only [Except.ok.injEq] at h
    subst h
    obtain ⟨hm, hle⟩ := max?_mem h1
    simp only [List.mem_filter, decide_eq_true_eq] at hm hle
    exact Or.inl ⟨hm.1, hm.2, fun b' hb' hlt => hle b' ⟨hb', hlt⟩⟩
  | none =>
    rw [h1] at h
    simp only at h
    cases h2 : (Dict.keys B).min? with
    | none => rw [h2] at h; cases h
    | some m =>
      rw [h2] at h
      simp only [Except.ok.injEq] at h
      subst h
      obtain ⟨hm, hle⟩ := min?_mem h2
      refine Or.inr ⟨?_, hm, hle⟩
      rw [List.max?_eq_none_iff, List.filter_eq_nil_iff] at h1
      intro b' hb'
      simpa using h1 b' hb'

theorem pickBracket_ok {B : Dict K K} (hne : B ≠ []) (x : K) : ∃ b, pickBracket B x = .ok b := by
  unfold pickBracket
  cases h1 : ((Dict.keys B).filter fun b => decide (b < x)).max? with
  | some m => exact ⟨m, rfl⟩
  | none =>
    cases h2 : (Dict.keys B).min? with
    | some m => exact ⟨m, rfl⟩
    | none =>
      rw [List.min?_eq_none_iff] at h2
      simp [Dict.keys] at h2
      exact absurd h2 hne

/-- On a strictly increasing list, walking up reads off the accumulated amount at the greatest
threshold below the income. -/
theorem walk_pick (p rp a : K) (rest : List (K × K)) (x b : K)
    (hs : ((p, rp) :: rest).Pairwise fun p q => p.1 < q.1)
    (hb : (b ∈ Dict.keys ((p, rp) :: rest) ∧ b < x ∧
        ∀ b' ∈ Dict.keys ((p, rp) :: rest), b' < x → b' ≤ b) ∨ (x ≤ p ∧ b = p)) :
    walk p rp a rest x = Dict.val ((p, a) :: accList p rp a rest) b
      + (x - b) * Dict.val ((p, rp) :: rest) b := by
  induction rest generalizing p rp a with
  | nil =>
    have : b = p := by
      rcases hb with ⟨h, -⟩ | ⟨-, h⟩
      · simpa using h
      · exact h
    subst this
    simp [walk, accList, Dict.val, Dict.get?]
  | cons q rest ih =>
    obtain ⟨b1, r1⟩ := q
    have hlt : p < b1 := (List.pairwise_cons.1 hs).1 (b1, r1) (by simp)
    have hs' := (List.pairwise_cons.1 hs).2
    rw [walk]
    split
    · next h =>
      have hne : b ≠ p := by
        rintro rfl
        rcases hb with ⟨-, -, h3⟩ | ⟨h1, -⟩
        · exact absurd (h3 b1 (by simp) h) (not_le.2 hlt)
        · exact absurd (hlt.trans h) (not_lt.2 h1)
      have hb' : b ∈ Dict.keys ((b1, r1) :: rest) ∧ b < x ∧
          ∀ b' ∈ Dict.keys ((b1, r1) :: rest), b' < x → b' ≤ b := by
        rcases hb with ⟨h1, h2, h3⟩ | ⟨h1, h2⟩
        · refine ⟨?_, h2, fun b' hb' => h3 b' (by
            rw [Dict.keys_cons]; exact List.mem_cons_of_mem _ hb')⟩
          rw [Dict.keys_cons] at h1
          rcases List.mem_cons.1 h1 with h1 | h1
          · exact absurd h1 hne
          · exact h1
        · exact absurd h2 hne
      rw [ih b1 r1 _ hs' (Or.inl hb')]
      have e1 : Dict.val ((p, rp) :: (b1, r1) :: rest) b = Dict.val ((b1, r1) :: rest) b := by
        simp [Dict.val, Dict.get?_cons, hne.symm]
      have e2 : Dict.val ((p, a) :: accList p rp a ((b1, r1) :: rest)) b
          = Dict.val ((b1, a + (b1 - p) * rp) :: accList b1 r1 (a + (b1 - p) * rp) rest) b := by
        simp only [accList, add_comm a]
        simp [Dict.val, Dict.get?_cons, hne.symm]
      rw [e1, e2]
    · next h =>
      have : b = p := by
        rcases hb with ⟨h1, h2, h3⟩ | ⟨-, h2⟩
        · rw [Dict.keys_cons, Dict.keys_cons] at h1
          rcases List.mem_cons.1 h1 with h1 | h1
          · exact h1
          · exfalso
            rcases List.mem_cons.1 h1 with h1 | h1
            · subst h1; exact h h2
            · obtain ⟨w, hw, rfl⟩ := List.mem_map.1 h1
              have := (List.pairwise_cons.1 hs').1 w hw
              exact h (this.trans h2)
        · exact h2
      subst this
      simp [Dict.val, Dict.get?_cons]

theorem val_ascending {B : Dict K K} (h : Dict.WF B) (b : K) :
    Dict.val (ascending B) b = Dict.val B b := by
  have hwf : Dict.WF (ascending B) := by
    unfold Dict.WF Dict.keys
    exact ((ascending_sorted h).imp fun h => h.ne) |> List.pairwise_map.2
  unfold Dict.val
  congr 1
  cases hg : Dict.get? B b with
  | some v => exact Dict.get?_of_mem hwf ((mem_ascending h).2 (Dict.mem_of_get? hg))
  | none =>
    rw [Dict.get?_eq_none] at hg ⊢
    intro hm
    obtain ⟨p, hp, rfl⟩ := List.mem_map.1 hm
    exact hg (Dict.mem_keys_of_mem ((mem_ascending h).1 hp))

theorem keys_ascending {B : Dict K K} (b : K) : b ∈ Dict.keys (ascending B) ↔ b ∈ Dict.keys B := by
  unfold ascending Dict.keys
  rw [List.map_map]
  simp only [Function.comp_def, List.map_id']
  exact (List.perm_insertionSort _ _).mem_iff

/-- The amount `tax_money` calculates from a table and its accumulated amounts is the
bracket-wise tax, if the income reaches the lowest threshold; otherwise it is
`(income - lowest) * rate`, which is not positive for a non-negative rate. -/
theorem gross_eq {B : Dict K K} (hB : Dict.WF B) (hne : B ≠ []) {x b : K}
    (hb : pickBracket B x = .ok b) :
    ∃ a acc rate, accumTable B = .ok a ∧ getItem a b = .ok acc ∧ getItem B b = .ok rate ∧
      (b ≤ x → acc + (x - b) * rate = bracketTax (ascending B) x) ∧
      (x ≤ b → acc = 0 ∧ bracketTax (ascending B) x = 0) ∧
      Dict.val B b = rate := by
  obtain ⟨p, rest, hasc, hacc⟩ := accumTable_eq hB hne
  have hs := ascending_sorted hB
  rw [hasc] at hs
  have hpm : p ∈ Dict.keys B := (keys_ascending p).1 (by rw [hasc]; simp)
  have hpmin : ∀ b' ∈ Dict.keys B, p ≤ b' := by
    intro b' hb'
    rw [← keys_ascending, hasc, Dict.keys_cons] at hb'
    rcases List.mem_cons.1 hb' with h | h
    · exact h.ge
    · obtain ⟨w, hw, rfl⟩ := List.mem_map.1 h
      exact ((List.pairwise_cons.1 hs).1 w hw).le
  have hbk : b ∈ Dict.keys B := by
    rcases pickBracket_spec hb with h | h
    · exact h.1
    · exact h.2.1
  have hrate : Dict.get? B b = some (Dict.val B b) := by
    obtain ⟨v, hv⟩ := Dict.mem_keys_iff.1 hbk
    simp [Dict.val, hv]
  have hbk' : b ∈ Dict.keys ((p, (0 : K)) :: accList p (Dict.val B p) 0 rest) := by
    rw [Dict.keys_cons, keys_accList]
    have := (keys_ascending b).2 hbk
    rwa [hasc, Dict.keys_cons] at this
  have hav : Dict.get? ((p, (0 : K)) :: accList p (Dict.val B p) 0 rest) b
      = some (Dict.val ((p, (0 : K)) :: accList p (Dict.val B p) 0 rest) b) := by
    exact Dict.get?_eq_some_val hbk'
  have hcase : (b ∈ Dict.keys ((p, Dict.val B p) :: rest) ∧ b < x ∧
        ∀ b' ∈ Dict.keys ((p, Dict.val B p) :: rest), b' < x → b' ≤ b) ∨ (x ≤ p ∧ b = p) := by
    rw [← hasc]
    rcases pickBracket_spec hb with ⟨h1, h2, h3⟩ | ⟨h1, h2, h3⟩
    · exact Or.inl ⟨(keys_ascending b).2 h1, h2, fun b' hb' => h3 b' ((keys_ascending b').1 hb')⟩
    · exact Or.inr ⟨h1 p hpm, le_antisymm (h3 p hpm) (hpmin b hbk)⟩
  have hw := walk_pick p (Dict.val B p) 0 rest x b hs hcase
  rw [← hasc, val_ascending hB] at hw
  refine ⟨_, _, _, hacc, by unfold getItem; rw [hav], by unfold getItem; rw [hrate], ?_, ?_, rfl⟩
  · intro hbx
    rw [← hw, walk_eq _ _ _ _ _ hs, zero_add, hasc]
    exact (hpmin b hbk).trans hbx
  · intro hbx
    have hbp : b = p := by
      rcases hcase with ⟨-, h, -⟩ | ⟨-, h⟩
      · exact absurd h (not_lt.2 hbx)
      · exact h
    subst hbp
    refine ⟨by simp [Dict.val, Dict.get?_cons], ?_⟩
    rw [hasc]; exact bracketTax_cons _ _ _ _ hbx hs

/-! ### The state of a `Tax` object -/

/-- Every table is a real, non-empty dict, and its accumulated amounts belong to it. -/
structure Inv (t : Tax K) : Prop where
  wf : Dict.WF t.brackets
  wfAcc : Dict.WF t.accum
  table : ∀ y B, Dict.get? t.brackets y = some B →
    Dict.WF B ∧ B ≠ [] ∧ ∃ a, accumTable B = .ok a ∧ Dict.get? t.accum y = some a
  acc : ∀ y, y ∈ Dict.keys t.accum → y ∈ Dict.keys t.brackets

theorem accumTable_ok {B : Dict K K} {a : Dict K K} (h : accumTable B = .ok a) : B ≠ [] := by
  rintro rfl
  simp [accumTable] at h

theorem addBrackets_inv {t t' : Tax K} (ht : Inv t) {B : Dict K K} (hB : Dict.WF B) {y : ℤ}
    (h : addBrackets t B y = .ok t') :
    Inv t' ∧ Dict.get? t'.brackets y = some B ∧
      (∃ a, accumTable B = .ok a ∧ Dict.get? t'.accum y = some a) ∧
      t'.personal = t.personal ∧ t'.creditRates = t.creditRates ∧ t'.adjust = t.adjust ∧
      (∀ y', Dict.get? t'.brackets y' = if y = y' then some B else Dict.get? t.brackets y') := by
  unfold addBrackets at h
  cases ha : accumTable B with
  | error e => rw [ha] at h; cases h
  | ok a =>
    rw [ha, ok_bind] at h
    simp only [Except.ok.injEq] at h
    subst h
    refine ⟨⟨Dict.wf_set ht.wf _ _, Dict.wf_set ht.wfAcc _ _, ?_, ?_⟩, by simp,
      ⟨a, rfl, by simp⟩, rfl, rfl, rfl, fun y' => Dict.get?_set _ _ _ _⟩
    · intro y' B' h'
      simp only [Dict.get?_set] at h' ⊢
      split at h'
      · cases h'
        exact ⟨hB, accumTable_ok ha, a, ha, by simp [*]⟩
      · obtain ⟨h1, h2, a', h3, h4⟩ := ht.table y' B' h'
        exact ⟨h1, h2, a', h3, by simp [*]⟩
    · intro y' h'
      rcases Dict.mem_keys_set.1 h' with h | h
      · exact Dict.mem_keys_set.2 (Or.inl h)
      · exact Dict.mem_keys_set.2 (Or.inr (ht.acc y' h))

theorem wf_scaleKeys (c : K) (B : Dict K K) : Dict.WF (scaleKeys c B) := by
  unfold scaleKeys
  have : ∀ d : Dict K K, Dict.WF d →
      Dict.WF (B.foldl (fun d kv => Dict.set d (kv.1 * c) kv.2) d) := by
    induction B with
    | nil => intro d hd; exact hd
    | cons x B ih => intro d hd; exact ih _ (Dict.wf_set hd _ _)
  exact this [] Dict.wf_nil

/-- `tax_brackets(year)` returns the table the object then holds for the year; asking again
changes nothing. -/
theorem taxBrackets_inv {t t' : Tax K} (ht : Inv t) {y : ℤ} {B : Dict K K}
    (h : taxBrackets t y = .ok (B, t')) :
    Inv t' ∧ Dict.get? t'.brackets y = some B ∧ taxBrackets t' y = .ok (B, t') ∧
      Dict.WF B ∧ B ≠ [] ∧ (∃ a, accumTable B = .ok a ∧ accum t' y = .ok (a, t')) ∧
      t'.personal = t.personal ∧ t'.creditRates = t.creditRates ∧ t'.adjust = t.adjust := by
  have key : ∀ t' : Tax K, Inv t' → Dict.get? t'.brackets y = some B →
      taxBrackets t' y = .ok (B, t') ∧ Dict.WF B ∧ B ≠ [] ∧
      (∃ a, accumTable B = .ok a ∧ accum t' y = .ok (a, t')) := by
    intro t' ht' hg
    obtain ⟨h1, h2, a, h3, h4⟩ := ht'.table y B hg
    exact ⟨by unfold taxBrackets; rw [hg], h1, h2, a, h3, by unfold accum; rw [h4]⟩
  unfold taxBrackets at h
  split at h
  · next B' hB =>
    cases h
    obtain ⟨e1, e2, e3, e4⟩ := key t ht hB
    exact ⟨ht, hB, e1, e2, e3, e4, rfl, rfl, rfl⟩
  · split at h
    · cases h
    · split at h
      · cases h
      · next _ base hbase _ B0 hB0 =>
        cases hc : t.adjust y base with
        | error e => rw [hc] at h; cases h
        | ok c =>
          rw [hc, ok_bind] at h
          cases ha : addBrackets t (scaleKeys c B0) y with
          | error e => rw [ha] at h; cases h
          | ok t1 =>
            rw [ha, ok_bind] at h
            simp only [Except.ok.injEq, Prod.mk.injEq] at h
            obtain ⟨rfl, rfl⟩ := h
            obtain ⟨i1, i2, -, i4, i5, i6, -⟩ := addBrackets_inv ht (wf_scaleKeys c B0) ha
            obtain ⟨e1, e2, e3, e4⟩ := key _ i1 i2
            exact ⟨i1, i2, e1, e2, e3, e4, i4, i5, i6⟩

/-- `tax_money` in one equation: the answer is a function of the year's table, and the new state
is that after `tax_brackets(year)`. -/
theorem taxMoney_eq {t t' : Tax K} (ht : Inv t) {y : ℤ} {B : Dict K K}
    (h : taxBrackets t y = .ok (B, t')) (x d c : K) :
    ∃ b acc rate, pickBracket B (x - d) = .ok b ∧ getItem B b = .ok rate ∧
      (b ≤ x - d → acc + (x - d - b) * rate = bracketTax (ascending B) (x - d)) ∧
      (x - d ≤ b → acc = 0 ∧ bracketTax (ascending B) (x - d) = 0) ∧
      taxMoney t x y d c
        = (creditRate t y).bind fun cr => .ok (max (acc + (x - d - b) * rate - c * cr) 0, t') := by
  obtain ⟨h1, h2, h3, h4, h5, ⟨a, h6, h7⟩, -, hcr, -⟩ := taxBrackets_inv ht h
  obtain ⟨b, hb⟩ := pickBracket_ok h5 (x - d)
  obtain ⟨a', acc, rate, g1, g2, g3, g4, g5, -⟩ := gross_eq h4 h5 hb
  rw [h6] at g1; cases g1
  refine ⟨b, acc, rate, hb, g3, g4, g5, ?_⟩
  have hc : creditRate t' y = creditRate t y := by unfold creditRate; rw [hcr]
  unfold taxMoney marginalBracket
  simp only [h, h3, ok_bind, hb, g3, h7, g2, hc]
  rfl

end Forecaster.Tax
