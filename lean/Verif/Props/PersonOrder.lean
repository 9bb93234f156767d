import Mathlib.Data.List.Sort
import Verif.Model.PersonOrder
import Verif.Props.Person

/-!
# C125: comparing and sorting persons
-/

namespace Forecaster.Person

open Forecaster

variable {K : Type} [Field K] [LinearOrder K] [IsStrictOrderedRing K]

/-- Specification: the gross income of the `i`-th person is now `g`. -/
def Earns (w : ℕ → Earner K) (i : ℕ) (g : K) : Prop := ∃ p, grossIncome (w i) = .ok (g, p)

/-- Specification: nobody's income, nor the possibility to know it, differs between `w` and `w'`. -/
def SameIncomes (w w' : ℕ → Earner K) : Prop := ∀ i g, Earns w i g ↔ Earns w' i g

theorem Earns.unique {w : ℕ → Earner K} {i : ℕ} {g h : K} (a : Earns w i g) (b : Earns w i h) : g = h := by
  obtain ⟨p, a⟩ := a
  obtain ⟨q, b⟩ := b
  rw [a] at b
  cases b
  rfl

theorem SameIncomes.trans {u v w : ℕ → Earner K} (a : SameIncomes u v) (b : SameIncomes v w) :
    SameIncomes u w := fun i g => (a i g).trans (b i g)

theorem sameIncomes_read {w : ℕ → Earner K} {i : ℕ} {g : K} {p : Earner K}
    (h : grossIncome (w i) = .ok (g, p)) : SameIncomes w (Function.update w i p) := by
  intro k x
  by_cases e : k = i
  · subst e
    have hp : grossIncome p = .ok (g, p) := grossIncome_hit (grossIncome_cached h).2
    unfold Earns
    rw [Function.update_self, h, hp]
  · unfold Earns
    rw [Function.update_of_ne e]

/-- **C125.** A person is greater than another exactly if the gross income is higher, and smaller exactly if
it is lower; asking changes nobody's income. -/
theorem C125_greater {w : ℕ → Earner K} {i j : ℕ} {a b : K} (hi : Earns w i a) (hj : Earns w j b) :
    (∃ w', compare w .gt (.person i) (.person j) = .ok (decide (a > b), w') ∧ SameIncomes w w') ∧
    (∃ w', compare w .lt (.person i) (.person j) = .ok (decide (a < b), w') ∧ SameIncomes w w') := by
  have key : ∀ {i j : ℕ} {a b : K}, Earns w i a → Earns w j b →
      ∃ w', greater w i j = .ok (decide (a > b), w') ∧ SameIncomes w w' := by
    intro i j a b hi hj
    obtain ⟨p, hp⟩ := hi
    have s1 := sameIncomes_read hp
    obtain ⟨q, hq⟩ := (s1 j b).1 hj
    refine ⟨_, ?_, s1.trans (sameIncomes_read hq)⟩
    unfold greater
    rw [hp, ok_bind]
    simp only [hq, ok_bind]
  exact ⟨key hi hj, key hj hi⟩

theorem greater_ok {w : ℕ → Earner K} {i j : ℕ} {a b : K} (hi : Earns w i a) (hj : Earns w j b) :
    ∃ w', greater w i j = .ok (decide (b < a), w') ∧ SameIncomes w w' := (C125_greater hi hj).1

/-- **C125.** Nothing else can be asked: not whether a person is at least or at most another one, and a
person cannot be compared with anything else. -/
theorem C125_not_comparable (w : ℕ → Earner K) (i : ℕ) (x : Operand) :
    compare w .ge (.person i) x = .error .typeError ∧ compare w .le (.person i) x = .error .typeError ∧
    compare w .lt (.person i) .thing = .error .typeError ∧
    compare w .gt .thing (.person i) = .error .typeError ∧
    (∀ g, Earns w i g → compare w .gt (.person i) .thing = .error .attributeError ∧
      compare w .lt .thing (.person i) = .error .attributeError) := by
  refine ⟨by cases x <;> rfl, by cases x <;> rfl, rfl, rfl, ?_⟩
  rintro g ⟨p, hp⟩
  simp [compare, hp]

/-- **C125.** Comparisons with a person whose income cannot be known fail, whatever is asked first. -/
theorem C125_unknown_income (w : ℕ → Earner K) (i j : ℕ) (h : (∀ g, ¬ Earns w i g) ∨ ∀ g, ¬ Earns w j g) :
    ∃ e, compare w .gt (.person i) (.person j) = .error e := by
  show ∃ e, greater w i j = .error e
  unfold greater
  cases hi : grossIncome (w i) with
  | error e => exact ⟨e, rfl⟩
  | ok a =>
    rw [ok_bind]
    have s1 := sameIncomes_read (w := w) (i := i) (g := a.1) (p := a.2) hi
    cases hj : grossIncome (Function.update w i a.2 j) with
    | error e => simp only [hj]; exact ⟨e, rfl⟩
    | ok b =>
      exfalso
      rcases h with h | h
      · exact h a.1 ⟨a.2, hi⟩
      · exact h b.1 ((s1 j b.1).2 ⟨b.2, hj⟩)

theorem maxFrom_ok (inc : ℕ → K) : ∀ (l : List ℕ) (w : ℕ → Earner K) (m : ℕ), Earns w m (inc m) →
    (∀ x ∈ l, Earns w x (inc x)) → ∃ r w', maxFrom w m l = .ok (r, w') ∧ SameIncomes w w' ∧
      (∃ before after, m :: l = before ++ r :: after ∧ (∀ x ∈ before, inc x < inc r) ∧
        ∀ x ∈ after, inc x ≤ inc r)
  | [], w, m, _, _ => ⟨m, w, rfl, fun _ _ => Iff.rfl, [], [], rfl, by simp, by simp⟩
  | x :: l, w, m, hm, hl => by
    obtain ⟨w1, h1, s1⟩ := greater_ok (hl x (by simp)) hm
    have hl' : ∀ z ∈ l, Earns w1 z (inc z) := fun z hz => (s1 _ _).1 (hl z (by simp [hz]))
    have hx' := (s1 _ _).1 (hl x (by simp))
    have hm' := (s1 _ _).1 hm
    by_cases g : inc m < inc x
    · obtain ⟨r, w2, h2, s2, b, a, e, hb, ha⟩ := maxFrom_ok inc l w1 x hx' hl'
      refine ⟨r, w2, ?_, s1.trans s2, m :: b, a, by rw [e]; rfl, ?_, ha⟩
      · unfold maxFrom
        rw [h1, ok_bind]
        simp only [g, decide_true, if_true]
        exact h2
      · have : inc x ≤ inc r := by
          cases b with
          | nil => rw [List.nil_append] at e; cases e; exact le_rfl
          | cons y b => cases e; exact (hb x (by simp)).le
        intro z hz
        rcases List.mem_cons.1 hz with rfl | hz
        · exact g.trans_le this
        · exact hb z hz
    · obtain ⟨r, w2, h2, s2, b, a, e, hb, ha⟩ := maxFrom_ok inc l w1 m hm' hl'
      have hm1 : maxFrom w m (x :: l) = .ok (r, w2) := by
        unfold maxFrom
        rw [h1, ok_bind]
        simp only [g, decide_false, Bool.false_eq_true, if_false]
        exact h2
      cases b with
      | nil =>
        rw [List.nil_append] at e
        cases e
        refine ⟨m, w2, hm1, s1.trans s2, [], x :: l, rfl, by simp, ?_⟩
        intro z hz
        rcases List.mem_cons.1 hz with rfl | hz
        · exact not_lt.1 g
        · exact ha z hz
      | cons y b =>
        cases e
        refine ⟨r, w2, hm1, s1.trans s2, m :: x :: b, a, rfl, ?_, ha⟩
        intro z hz
        rcases List.mem_cons.1 hz with rfl | hz
        · exact hb _ (by simp)
        · rcases List.mem_cons.1 hz with rfl | hz
          · exact (not_lt.1 g).trans_lt (hb m (by simp))
          · exact hb z (by simp [hz])

/-- **C125.** `max(people)` is the first of those with the highest gross income. -/
theorem C125_max {w : ℕ → Earner K} {l : List ℕ} (hne : l ≠ []) {inc : ℕ → K}
    (hl : ∀ x ∈ l, Earns w x (inc x)) :
    ∃ r w', maxOf w l = .ok (r, w') ∧ SameIncomes w w' ∧
      ∃ before after, l = before ++ r :: after ∧ (∀ x ∈ before, inc x < inc r) ∧
        ∀ x ∈ after, inc x ≤ inc r := by
  cases l with
  | nil => exact absurd rfl hne
  | cons x l => exact maxFrom_ok inc l w x (hl x (by simp)) fun z hz => hl z (by simp [hz])

theorem minFrom_ok (inc : ℕ → K) : ∀ (l : List ℕ) (w : ℕ → Earner K) (m : ℕ), Earns w m (inc m) →
    (∀ x ∈ l, Earns w x (inc x)) → ∃ r w', minFrom w m l = .ok (r, w') ∧ SameIncomes w w' ∧
      (∃ before after, m :: l = before ++ r :: after ∧ (∀ x ∈ before, inc r < inc x) ∧
        ∀ x ∈ after, inc r ≤ inc x)
  | [], w, m, _, _ => ⟨m, w, rfl, fun _ _ => Iff.rfl, [], [], rfl, by simp, by simp⟩
  | x :: l, w, m, hm, hl => by
    obtain ⟨w1, h1, s1⟩ := greater_ok hm (hl x (by simp))
    have hl' : ∀ z ∈ l, Earns w1 z (inc z) := fun z hz => (s1 _ _).1 (hl z (by simp [hz]))
    have hx' := (s1 _ _).1 (hl x (by simp))
    have hm' := (s1 _ _).1 hm
    by_cases g : inc x < inc m
    · obtain ⟨r, w2, h2, s2, b, a, e, hb, ha⟩ := minFrom_ok inc l w1 x hx' hl'
      refine ⟨r, w2, ?_, s1.trans s2, m :: b, a, by rw [e]; rfl, ?_, ha⟩
      · unfold minFrom
        rw [h1, ok_bind]
        simp only [g, decide_true, if_true]
        exact h2
      · have : inc r ≤ inc x := by
          cases b with
          | nil => rw [List.nil_append] at e; cases e; exact le_rfl
          | cons y b => cases e; exact (hb x (by simp)).le
        intro z hz
        rcases List.mem_cons.1 hz with rfl | hz
        · exact this.trans_lt g
        · exact hb z hz
    · obtain ⟨r, w2, h2, s2, b, a, e, hb, ha⟩ := minFrom_ok inc l w1 m hm' hl'
      have hm1 : minFrom w m (x :: l) = .ok (r, w2) := by
        unfold minFrom
        rw [h1, ok_bind]
        simp only [g, decide_false, Bool.false_eq_true, if_false]
        exact h2
      cases b with
      | nil =>
        rw [List.nil_append] at e
        cases e
        refine ⟨m, w2, hm1, s1.trans s2, [], x :: l, rfl, by simp, ?_⟩
        intro z hz
        rcases List.mem_cons.1 hz with rfl | hz
        · exact not_lt.1 g
        · exact ha z hz
      | cons y b =>
        cases e
        refine ⟨r, w2, hm1, s1.trans s2, m :: x :: b, a, rfl, ?_, ha⟩
        intro z hz
        rcases List.mem_cons.1 hz with rfl | hz
        · exact hb _ (by simp)
        · rcases List.mem_cons.1 hz with rfl | hz
          · exact (hb m (by simp)).trans_le (not_lt.1 g)
          · exact hb z (by simp [hz])

/-- **C125.** `min(people)` is the first of those with the lowest gross income; of nobody, there is neither a
smallest nor a largest (`ValueError`). -/
theorem C125_min {w : ℕ → Earner K} {l : List ℕ} (hne : l ≠ []) {inc : ℕ → K}
    (hl : ∀ x ∈ l, Earns w x (inc x)) :
    (∃ r w', minOf w l = .ok (r, w') ∧ SameIncomes w w' ∧
      ∃ before after, l = before ++ r :: after ∧ (∀ x ∈ before, inc r < inc x) ∧
        ∀ x ∈ after, inc r ≤ inc x) ∧
    minOf w [] = .error .valueError ∧ maxOf w [] = .error .valueError := by
  cases l with
  | nil => exact absurd rfl hne
  | cons x l => exact ⟨minFrom_ok inc l w x (hl x (by simp)) fun z hz => hl z (by simp [hz]), rfl, rfl⟩

theorem insertInto_ok (inc : ℕ → K) (x : ℕ) : ∀ (l : List ℕ) (w : ℕ → Earner K), Earns w x (inc x) →
    (∀ y ∈ l, Earns w y (inc y)) → l.Pairwise (fun a b => inc a ≤ inc b) →
    ∃ r w', insertInto w x l = .ok (r, w') ∧ SameIncomes w w' ∧ r.Perm (x :: l) ∧
      r.Pairwise (fun a b => inc a ≤ inc b) ∧
      ∀ g, r.filter (fun y => decide (inc y = g)) = (l ++ [x]).filter (fun y => decide (inc y = g))
  | [], w, _, _, _ => ⟨[x], w, rfl, fun _ _ => Iff.rfl, List.Perm.refl _, by simp, fun g => rfl⟩
  | y :: l, w, hx, hl, hs => by
    obtain ⟨w1, h1, s1⟩ := greater_ok (hl y (by simp)) hx
    have hs' := List.pairwise_cons.1 hs
    by_cases g : inc x < inc y
    · refine ⟨x :: y :: l, w1, ?_, s1, List.Perm.refl _, ?_, fun v => ?_⟩
      · unfold insertInto
        rw [h1, ok_bind]
        simp [g]
      · refine List.pairwise_cons.2 ⟨fun z hz => ?_, hs⟩
        rcases List.mem_cons.1 hz with rfl | hz
        · exact g.le
        · exact g.le.trans (hs'.1 z hz)
      · by_cases e : inc x = v
        · have none : (y :: l).filter (fun y => decide (inc y = v)) = [] := by
            rw [List.filter_eq_nil_iff]
            intro z hz
            have : inc x < inc z := by
              rcases List.mem_cons.1 hz with rfl | hz
              · exact g
              · exact g.trans_le (hs'.1 z hz)
            simp only [decide_eq_true_eq]
            rw [← e]
            exact this.ne'
          rw [List.filter_append, none, List.filter_cons_of_pos (by simpa using e), none]
          simp [e]
        · rw [List.filter_append, List.filter_cons_of_neg (by simpa using e)]
          simp [e]
    · obtain ⟨r, w2, h2, s2, p, q, f⟩ := insertInto_ok inc x l w1 ((s1 _ _).1 hx)
        (fun z hz => (s1 _ _).1 (hl z (by simp [hz]))) hs'.2
      refine ⟨y :: r, w2, ?_, s1.trans s2, (p.cons y).trans (List.Perm.swap x y l), ?_, fun v => ?_⟩
      · unfold insertInto
        rw [h1, ok_bind]
        simp only [g, decide_false, Bool.false_eq_true, if_false]
        rw [h2, ok_bind]
      · refine List.pairwise_cons.2 ⟨fun z hz => ?_, q⟩
        rcases List.mem_cons.1 (p.mem_iff.1 hz) with rfl | hz
        · exact not_lt.1 g
        · exact hs'.1 z hz
      · rw [List.cons_append]
        simp only [List.filter_cons]
        rw [f v]

theorem sortFrom_ok (inc : ℕ → K) : ∀ (l done : List ℕ) (w : ℕ → Earner K),
    (∀ y ∈ done, Earns w y (inc y)) → (∀ y ∈ l, Earns w y (inc y)) →
    done.Pairwise (fun a b => inc a ≤ inc b) →
    ∃ r w', sortFrom w done l = .ok (r, w') ∧ SameIncomes w w' ∧ r.Perm (done ++ l) ∧
      r.Pairwise (fun a b => inc a ≤ inc b) ∧
      ∀ g, r.filter (fun y => decide (inc y = g)) = (done ++ l).filter (fun y => decide (inc y = g))
  | [], done, w, _, _, hs => ⟨done, w, rfl, fun _ _ => Iff.rfl, by simp, hs, fun g => by simp⟩
  | x :: l, done, w, hd, hl, hs => by
    obtain ⟨r1, w1, h1, s1, p1, q1, f1⟩ := insertInto_ok inc x done w (hl x (by simp)) hd hs
    obtain ⟨r, w2, h2, s2, p2, q2, f2⟩ := sortFrom_ok inc l r1 w1
      (fun y hy => (s1 _ _).1 (by
        rcases List.mem_cons.1 (p1.mem_iff.1 hy) with rfl | hy
        · exact hl y (by simp)
        · exact hd y hy))
      (fun y hy => (s1 _ _).1 (hl y (by simp [hy]))) q1
    refine ⟨r, w2, ?_, s1.trans s2, p2.trans ?_, q2, fun g => ?_⟩
    · unfold sortFrom
      rw [h1, ok_bind]
      exact h2
    · refine (p1.append_right l).trans ?_
      exact (List.perm_middle (l₁ := done) (l₂ := l) (a := x)).symm
    · rw [f2 g, List.filter_append, f1 g, ← List.filter_append, List.append_assoc, List.singleton_append]

/-- **C125.** `sorted(people)` are the same persons, from the lowest gross income to the highest, and those
who earn the same in the order they were in. -/
theorem C125_sorted {w : ℕ → Earner K} {l : List ℕ} {inc : ℕ → K} (hl : ∀ x ∈ l, Earns w x (inc x)) :
    ∃ r w', sortFrom w [] l = .ok (r, w') ∧ SameIncomes w w' ∧ r.Perm l ∧
      r.Pairwise (fun a b => inc a ≤ inc b) ∧
      ∀ g, r.filter (fun y => decide (inc y = g)) = l.filter (fun y => decide (inc y = g)) :=
  sortFrom_ok inc l [] w (by simp) hl List.Pairwise.nil

/-- **C125.** Two persons whose raises and retirements are known compare as their pay, raised every year,
does; a retired one is not greater than anyone. -/
theorem C125_by_pay {w : ℕ → Earner K} {i j : ℕ} {c d : K}
    {y0 : ℤ} {ret ret' : Date} {ra ra' : RaiseArg K} {tax tax' : Option (K → ℤ → Except PyErr K)}
    {p q : Earner K} (hp : Earner.init y0 ret ra tax c = .ok p) (hq : Earner.init y0 ret' ra' tax' d = .ok q)
    {r r' : ℤ → K} (hr : ∀ y v, ra.Gives y v → v = r y) (hr' : ∀ y v, ra'.Gives y v → v = r' y)
    (ops ops' : List Op) (n : ℕ) (hn : (run p ops).year = y0 + n) (hn' : (run q ops').year = y0 + n)
    (hi : w i = run p ops) (hj : w j = run q ops') (ha : ∃ a, Earns w i a) (hb : ∃ b, Earns w j b) :
    ∃ w', compare w .gt (.person i) (.person j)
      = .ok (decide (incomeAfter r ret.year y0 c n > incomeAfter r' ret'.year y0 d n), w') := by
  obtain ⟨a, p', hp'⟩ := ha
  obtain ⟨b, q', hq'⟩ := hb
  have e1 := C38_gross_income y0 ret ra tax c p hp r hr ops n hn a p' (hi ▸ hp')
  have e2 := C38_gross_income y0 ret' ra' tax' d q hq r' hr' ops' n hn' b q' (hj ▸ hq')
  obtain ⟨⟨w', h, -⟩, -⟩ := C125_greater (w := w) (i := i) (j := j) (a := a) (b := b) ⟨p', hp'⟩ ⟨q', hq'⟩
  exact ⟨w', by rw [h, e1, e2]⟩

/-- Four persons who earn 30, 10, 30 and 20 (the third one after a raise of a half). -/
def exFour : ℕ → Earner ℚ := fun i =>
  if i = 2 then ⟨2001, ⟨2040, 1, 1, 0⟩, fun _ => .ok (some (1 / 2)), none, [(2000, 20)], [], []⟩
  else ⟨2000, ⟨2040, 1, 1, 0⟩, fun _ => .ok (some 0), none,
    [(2000, if i = 0 then 30 else if i = 1 then 10 else 20)], [], []⟩

/-- The hypotheses of the theorems above are met. -/
example : (∀ x ∈ [0, 1, 2, 3], Earns exFour x (if x = 0 ∨ x = 2 then 30 else if x = 1 then 10 else 20)) ∧
    (maxOf exFour [3, 2, 0, 1]).map (·.1) = .ok 2 ∧ (minOf exFour [3, 2, 0, 1]).map (·.1) = .ok 1 ∧
    (sortFrom exFour [] [2, 3, 0, 1]).map (·.1) = .ok [1, 3, 2, 0] := by
  refine ⟨?_, by decide +kernel, by decide +kernel, by decide +kernel⟩
  intro x hx
  simp only [List.mem_cons, List.not_mem_nil, or_false] at hx
  rcases hx with rfl | rfl | rfl | rfl
  · exact ⟨exFour 0, rfl⟩
  · exact ⟨exFour 1, rfl⟩
  · refine ⟨_, show grossIncome (exFour 2) = .ok (30, { exFour 2 with
        raises := [(2001, some (1 / 2))]
        gross := [(2000, 20), (2001, 30)] }) from ?_⟩
    unfold exFour grossIncome raiseRate Account.look
    simp [Dict.get?, Dict.set, ok_bind]
    norm_num
  · exact ⟨exFour 3, rfl⟩

end Forecaster.Person
