import Verif.Props.TraversalTree

/-!
# C70: nested ordered lists
-/

set_option linter.unusedSectionVars false

namespace Forecaster.Traversal

open Forecaster Forecaster.Timing

variable {K : Type} [Field K] [LinearOrder K] [IsStrictOrderedRing K] [FloorRing K]
variable {N A : Type} [DecidableEq N] [DecidableEq A]

section Nested

variable {E : Env N A K} {f : Forest N A} {total : K} {fuel : ℕ} {r : Dict A (Dict K K)}

/-- **C70.** Money put into nested ordered lists of which only the first and the last entries are
lists of more than one account: first the minimums are filled, then the maximums, both in the
order in which the accounts are written down. -/
theorem C70_inflows_in_order (hE : Optimal E) (hA : Answers E) (hX : Exact E)
    (hp : 0 < E.precision) (ht : E.precision < total)
    (hmin : Nested E .minIn f) (hmax : Nested E .maxIn f) (hf : f.EdgesOnly true)
    (lo : A → K) (hi : A → Ext K)
    (hlo : ∀ a ∈ f.accs, E.limitOf a .minIn = .ok (.fin (lo a)) ∧ 0 ≤ lo a)
    (hhi : ∀ a ∈ f.accs, E.limitOf a .maxIn = .ok (hi a) ∧ .fin (lo a) ≤ hi a)
    (h : call E fuel total = .ok r) :
    f.accs.map (given r) =
      (twoPass ⌊total / E.precision⌋ (f.accs.map fun a => ⌊lo a / E.precision⌋)
        (f.accs.map fun a => wholeUnits E.precision (hi a))).map fun x : ℤ => E.precision * (x : K) :=
  fills_inflows_in_order hE hA hX hp ht (hmin.fills hE hf) (hmax.fills hE hf) lo hi hlo hhi h

/-- **C70.** Money taken out of such lists empties the accounts in the order in which they are
written down. -/
theorem C70_outflows_in_order (hE : Optimal E) (hA : Answers E) (hX : Exact E)
    (hp : 0 < E.precision) (ht : total < -E.precision)
    (hmax : Nested E .maxOut f) (hf : f.EdgesOnly true)
    (hmin : E.tree.limits E.tree.root .minOut = none)
    (hroot : ∀ n, E.tree.root ∉ childNodes E n) (hi : A → K)
    (hhi : ∀ a ∈ f.accs, E.limitOf a .maxOut = .ok (.fin (-hi a)) ∧ 0 ≤ hi a)
    (hlo : ∀ a ∈ f.accs, ∃ lo, E.limitOf a .minOut = .ok (.fin lo) ∧ lo ≤ 0)
    (h : call E fuel total = .ok r) :
    f.accs.map (given r) =
      (fill ⌊-total / E.precision⌋ (f.accs.map fun a => some ⌊hi a / E.precision⌋)).map
        fun x : ℤ => -(E.precision * (x : K)) :=
  fills_outflows_in_order hE hA hX hp ht (hmax.fills hE hf) hmin hroot hi hhi hlo h

/-- What the accounts of any nested lists get, without minimums. -/
theorem nested_inflows (hE : Optimal E) (hA : Answers E) (hX : Exact E)
    (hp : 0 < E.precision) (ht : E.precision < total)
    (hmin : Nested E .minIn f) (hmax : Nested E .maxIn f) (hi : A → Ext K)
    (hlo : ∀ a ∈ f.accs, E.limitOf a .minIn = .ok (.fin 0))
    (hhi : ∀ a ∈ f.accs, E.limitOf a .maxIn = .ok (hi a) ∧ .fin 0 ≤ hi a)
    (h : call E fuel total = .ok r) :
    ∃ y : A → ℤ, (∀ a ∈ f.accs, given r a = E.precision * (y a : K)) ∧
      (f.accs.map y).sum ≤ ⌊total / E.precision⌋ ∧
      (∀ a ∈ f.accs, 0 ≤ y a ∧ Within (wholeUnits E.precision (hi a)) (y a)) ∧
      (∀ a ∈ f.accs, Room (wholeUnits E.precision (hi a)) (y a) →
        (f.accs.map y).sum = ⌊total / E.precision⌋) ∧
      ∀ a ∈ f.accs, ∀ b ∈ f.accs, f.pen a < f.pen b →
        Room (wholeUnits E.precision (hi a)) (y a) → y b = 0 := by
  have ht0 : 0 ≤ total := (hp.trans ht).le
  have hT : |pyInt (total / E.precision)| = ⌊total / E.precision⌋ := by
    rw [abs_pyInt, abs_of_nonneg (div_nonneg ht0 hp.le)]
  unfold call at h
  rw [if_pos ht, bind_ok_iff] at h
  obtain ⟨⟨r₁, m₁⟩, h1, h⟩ := h
  rw [bind_ok_iff] at h
  obtain ⟨⟨r₂, m₂⟩, h2, h⟩ := h
  cases h
  obtain ⟨x, T₁, -, -, x0, -, -, -, xr, w₁, hm⟩ := nested_pass hE hmin h1
  obtain ⟨hm1, hm2⟩ := hm rfl
  obtain ⟨y, T₂, hT₂, yT, y0, ysum, yroom, ypen, yr, w₂, -⟩ := nested_pass hE hmax h2
  -- nothing in the first pass
  have hx : ∀ a ∈ f.accs, x a = 0 := by
    intro a ha
    have hcap := capOf_eq (memo := []) hp (hlo a ha) (by simp [flowsFrom])
    obtain ⟨k1, k2⟩ := x0 a ha
    rw [hcap] at k2
    simp only [wholeUnits, roomLeft, Within, zero_div, Int.floor_zero] at k2
    have : flowsFrom ([] : Flows N A) (.acct a) = 0 := rfl
    omega
  have hxs : (f.accs.map x).sum = 0 := by
    apply List.sum_eq_zero
    intro z hz
    obtain ⟨a, ha, rfl⟩ := List.mem_map.1 hz
    exact hx a ha
  rw [hT, hm1, hxs, sub_zero] at hT₂
  subst hT₂
  have hcap : ∀ a ∈ f.accs, capOf E .maxIn m₁ a = wholeUnits E.precision (hi a) := by
    intro a ha
    rw [capOf_eq hp (hhi a ha).1 (by rw [hm2 a ha, hx a ha]; simpa using (hhi a ha).2), hm2 a ha,
      hx a ha]
    cases hi a <;> simp [wholeUnits, roomLeft]
  have yhi : ∀ a ∈ f.accs, Ext.fin (E.precision * (y a : K)) ≤ hi a := by
    intro a ha
    have hw := (y0 a ha).2
    rw [hcap a ha] at hw
    cases hz : hi a with
    | fin z =>
      rw [hz] at hw
      have h5 : y a ≤ ⌊z / E.precision⌋ := hw
      have h6 : (y a : K) ≤ z / E.precision := le_trans (by exact_mod_cast h5) (Int.floor_le _)
      rw [le_div_iff₀ hp, mul_comm] at h6
      simpa using h6
    | posInf => simp
    | negInf => have := (hhi a ha).2; rw [hz] at this; simp at this
  have tx₂ : ∀ a t, Dict.get? r₂ a = some t → Dict.WF t := by
    intro a t hat
    obtain ⟨g₂, f₂, -, -, F₂, -, -, -, hx₂⟩ := traverse_spec hE.sound h2
    have := (hx₂ a t hat).2
    rw [money_pos E ht0] at this
    exact (hA.inflow a _ _ t (.inr rfl)
      (mul_nonneg hp.le (by exact_mod_cast out_nonneg F₂ _)) this).1
  have g₁ : ∀ a ∈ f.accs, given r₁ a = 0 := by
    intro a ha
    obtain ⟨hn, hs⟩ := xr a ha
    cases hz : Dict.get? r₁ a with
    | none => exact given_none hz
    | some t =>
      have h5 := hs t hz
      rw [money_pos E ht0, hx a ha] at h5
      rw [given_some hz]
      exact (hX.inflow _ _ _ 0 t (.inl rfl) (hlo a ha) le_rfl (by simp) (by simpa using h5)).2
  have g₂ : ∀ a ∈ f.accs, given r₂ a = E.precision * (y a : K) := by
    intro a ha
    obtain ⟨hn, hs⟩ := yr a ha
    cases hz : Dict.get? r₂ a with
    | none => rw [given_none hz, hn hz]; simp
    | some t =>
      have h5 := hs t hz
      rw [money_pos E ht0] at h5
      rw [given_some hz]
      exact (hX.inflow _ _ _ _ t (.inr rfl) (hhi a ha).1
        (mul_nonneg hp.le (by exact_mod_cast (y0 a ha).1)) (yhi a ha) h5).2
  refine ⟨y, fun a ha => ?_, ysum, fun a ha => ?_, fun a ha hr => ?_, fun a ha b hb hab hr => ?_⟩
  · rw [given_combine w₁ tx₂, g₁ a ha, g₂ a ha, zero_add]
  · rw [← hcap a ha]; exact y0 a ha
  · rw [← hcap a ha] at hr; exact yroom a ha hr
  · rw [← hcap a ha] at hr; exact ypen a ha b hb hab hr

theorem room_of {p : K} (hp : 0 < p) {l : Ext K} {y : ℤ}
    (h : .fin (p * (y : K) + p) ≤ l) : Room (wholeUnits p l) y := by
  cases l with
  | fin z =>
    simp only [wholeUnits, Room]
    have h3 : p * (y : K) + p ≤ z := by simpa using h
    have h4 : (((y + 1 : ℤ)) : K) ≤ z / p := by
      rw [le_div_iff₀ hp]; push_cast; linarith
    have := Int.le_floor.2 h4
    omega
  | posInf => trivial
  | negInf => trivial

/-- **C70.** However the lists are nested: if an account could take another unit, less than one
unit of the money is left over. -/
theorem C70_nothing_left_over (hE : Optimal E) (hA : Answers E) (hX : Exact E)
    (hp : 0 < E.precision) (ht : E.precision < total)
    (hmin : Nested E .minIn f) (hmax : Nested E .maxIn f) (hi : A → Ext K)
    (hlo : ∀ a ∈ f.accs, E.limitOf a .minIn = .ok (.fin 0))
    (hhi : ∀ a ∈ f.accs, E.limitOf a .maxIn = .ok (hi a) ∧ .fin 0 ≤ hi a)
    (h : call E fuel total = .ok r) (a : A) (ha : a ∈ f.accs)
    (room : .fin (given r a + E.precision) ≤ hi a) :
    total - E.precision < (f.accs.map (given r)).sum := by
  obtain ⟨y, hy, -, -, hroom, -⟩ := nested_inflows hE hA hX hp ht hmin hmax hi hlo hhi h
  rw [hy a ha] at room
  have hs := hroom a ha (room_of hp room)
  have e : f.accs.map (given r) = f.accs.map fun a => E.precision * ((y a : ℤ) : K) :=
    List.map_congr_left hy
  rw [e, List.sum_map_mul_left]
  have : ((f.accs.map fun a => ((y a : ℤ) : K)).sum) = ((⌊total / E.precision⌋ : ℤ) : K) := by
    rw [← hs]
    have e := map_list_sum (Int.castAddHom K) (f.accs.map y)
    rw [List.map_map] at e
    exact e.symm
  rw [this]
  have h5 := Int.lt_floor_add_one (total / E.precision)
  rw [div_lt_iff₀ hp] at h5
  linarith

/-- **C70.** However the lists are nested: as long as an account could take another unit, no
account with a larger penalty gets anything. -/
theorem C70_by_penalty (hE : Optimal E) (hA : Answers E) (hX : Exact E)
    (hp : 0 < E.precision) (ht : E.precision < total)
    (hmin : Nested E .minIn f) (hmax : Nested E .maxIn f) (hi : A → Ext K)
    (hlo : ∀ a ∈ f.accs, E.limitOf a .minIn = .ok (.fin 0))
    (hhi : ∀ a ∈ f.accs, E.limitOf a .maxIn = .ok (hi a) ∧ .fin 0 ≤ hi a)
    (h : call E fuel total = .ok r) {a b : A} {p q : ℤ} (ha : (a, p) ∈ f.pens 0 0)
    (hb : (b, q) ∈ f.pens 0 0) (hpq : p < q)
    (room : .fin (given r a + E.precision) ≤ hi a) : given r b = 0 := by
  obtain ⟨y, hy, -, -, -, hpen⟩ := nested_inflows hE hA hX hp ht hmin hmax hi hlo hhi h
  obtain ⟨k1, k2⟩ := Forest.pot_pens f _ 0 0 hmax.apart _ ha
  obtain ⟨k3, k4⟩ := Forest.pot_pens f _ 0 0 hmax.apart _ hb
  rw [hy a k2] at room
  rw [hy b k4, hpen a k2 b k4 (by unfold Forest.pen; rw [k1, k3]; exact hpq) (room_of hp room)]
  simp

/-- Specification: the accounts that are entries of the list itself. -/
def Forest.tops : Forest N A → List A
  | .nil => []
  | .leaf _ a r => a :: r.tops
  | .node _ _ r => r.tops

/-- Specification: `a` and `b` are entries of the same list, `a` before `b`. -/
def Forest.Before (a b : A) : Forest N A → Prop
  | .nil => False
  | .leaf _ c r => (c = a ∧ b ∈ r.tops) ∨ r.Before a b
  | .node _ c r => c.Before a b ∨ r.Before a b

theorem Forest.tops_pens (f : Forest N A) (b w : ℤ) (hw : 0 ≤ w) :
    ∀ a ∈ f.tops, ∃ p, (a, p) ∈ f.pens b w ∧ b + w ≤ p := by
  induction f generalizing w with
  | nil => intro a ha; simp [tops] at ha
  | leaf n c r ih =>
    intro a ha
    simp only [tops, List.mem_cons] at ha
    rcases ha with rfl | ha
    · exact ⟨b + w, by simp [pens], le_rfl⟩
    · obtain ⟨p, h1, h2⟩ := ih (max w 0 + 1) (by omega) a ha
      exact ⟨p, by simp [pens, h1], by omega⟩
  | node n c r _ ih =>
    intro a ha
    obtain ⟨p, h1, h2⟩ := ih (max w (c.sumW 0) + 1) (by omega) a ha
    exact ⟨p, by simp [pens, h1], by omega⟩

theorem Forest.before_pens (f : Forest N A) (b w : ℤ) (hw : 0 ≤ w) {a a' : A}
    (h : f.Before a a') : ∃ p q, (a, p) ∈ f.pens b w ∧ (a', q) ∈ f.pens b w ∧ p < q := by
  induction f generalizing b w with
  | nil => exact h.elim
  | leaf n c r ih =>
    rcases h with ⟨rfl, h⟩ | h
    · obtain ⟨q, h1, h2⟩ := tops_pens r b (max w 0 + 1) (by omega) a' h
      exact ⟨b + w, q, by simp [pens], by simp [pens, h1], by omega⟩
    · obtain ⟨p, q, h1, h2, h3⟩ := ih b (max w 0 + 1) (by omega) h
      exact ⟨p, q, by simp [pens, h1], by simp [pens, h2], h3⟩
  | node n c r ihc ihr =>
    rcases h with h | h
    · obtain ⟨p, q, h1, h2, h3⟩ := ihc (b + w) 0 le_rfl h
      exact ⟨p, q, by simp [pens, h1], by simp [pens, h2], h3⟩
    · obtain ⟨p, q, h1, h2, h3⟩ := ihr b (max w (c.sumW 0) + 1) (by omega) h
      exact ⟨p, q, by simp [pens, h1], by simp [pens, h2], h3⟩

/-- **C70.** However the lists are nested: of two accounts that are entries of the same list, the
later one gets nothing as long as the earlier one could take another unit. -/
theorem C70_same_list (hE : Optimal E) (hA : Answers E) (hX : Exact E)
    (hp : 0 < E.precision) (ht : E.precision < total)
    (hmin : Nested E .minIn f) (hmax : Nested E .maxIn f) (hi : A → Ext K)
    (hlo : ∀ a ∈ f.accs, E.limitOf a .minIn = .ok (.fin 0))
    (hhi : ∀ a ∈ f.accs, E.limitOf a .maxIn = .ok (hi a) ∧ .fin 0 ≤ hi a)
    (h : call E fuel total = .ok r) {a b : A} (hab : f.Before a b)
    (room : .fin (given r a + E.precision) ≤ hi a) : given r b = 0 := by
  obtain ⟨p, q, h1, h2, h3⟩ := Forest.before_pens f 0 0 le_rfl hab
  exact C70_by_penalty hE hA hX hp ht hmin hmax hi hlo hhi h h1 h2 h3 room

end Nested

/-! ### Concrete cases -/

section Cases

/-- `[[1, 2], 3, [4], [5, 6]]`: nodes 10, 11 and 12 are the inner lists. -/
def layered : Forest ℕ ℕ :=
  .node 10 (.leaf 1 1 (.leaf 2 2 .nil)) (.leaf 3 3 (.node 11 (.leaf 4 4 .nil)
    (.node 12 (.leaf 5 5 (.leaf 6 6 .nil)) .nil)))

/-- Six accounts with minimums 0, 10, 0, 0, 5, 0 and maximums of 30, the last one unlimited. -/
def layeredEnv : Env ℕ ℕ ℚ where
  tree := { root := 0, kind := fun n => if n = 0 then .ordered [10, 3, 11, 12]
    else if n = 10 then .ordered [1, 2] else if n = 11 then .ordered [4]
    else if n = 12 then .ordered [5, 6] else .leaf n }
  precision := 1 / 2
  limitOf a lim := .ok (match lim with
    | .minIn => if a = 2 then .fin 10 else if a = 5 then .fin 5 else .fin 0
    | .maxIn => if a = 6 then .posInf else .fin 30
    | .minOut => .fin 0
    | .maxOut => .fin (-20))
  txOf _ _ x := .ok [(1 / 2, x)]
  groupOf _ _ := none
  solve := certified greedy

theorem layered_optimal : Optimal layeredEnv :=
  ⟨fun g f h => certified_sound greedy g f h, fun _ _ h => h, fun _ _ => Iff.rfl⟩

theorem layered_nested (lim : Lim) : Nested layeredEnv lim layered := by
  refine ⟨rfl, rfl, ?_, ⟨by decide, by decide⟩⟩
  simp [layered, Forest.Fits, layeredEnv, Forest.roots]

theorem layered_edges : layered.EdgesOnly true := by
  simp [layered, Forest.EdgesOnly, Forest.Single]

/-- 72.7 in: minimums 10 for account 2 and 5 for account 5; then 30 for account 1, another 20 for
account 2, and what is left for account 3. -/
theorem layered_call : call layeredEnv 12 (727 / 10) =
    .ok [(1, [(1 / 2, 30)]), (2, [(1 / 2, 30)]), (3, [(1 / 2, 15 / 2)]), (4, [(1 / 2, 0)]),
      (5, [(1 / 2, 5)]), (6, [(1 / 2, 0)])] := by
  decide +kernel

example : layered.accs.map (given [(1, [(1 / 2, 30)]), (2, [(1 / 2, 30)]), (3, [(1 / 2, 15 / 2)]),
      (4, [(1 / 2, (0 : ℚ))]), (5, [(1 / 2, 5)]), (6, [(1 / 2, 0)])]) =
    (twoPass ⌊(727 / 10 : ℚ) / (1 / 2)⌋ (layered.accs.map fun a : ℕ =>
        ⌊(if a = 2 then (10 : ℚ) else if a = 5 then 5 else 0) / (1 / 2)⌋)
      (layered.accs.map fun a : ℕ => wholeUnits (1 / 2 : ℚ) (if a = 6 then .posInf else .fin 30))).map
      fun x : ℤ => (1 / 2 : ℚ) * x :=
  C70_inflows_in_order layered_optimal (plain_answers fun _ _ _ => rfl).1
    (plain_answers fun _ _ _ => rfl).2 (by decide +kernel) (by decide +kernel)
    (layered_nested _) (layered_nested _) layered_edges
    (fun a => if a = 2 then 10 else if a = 5 then 5 else 0)
    (fun a => if a = 6 then .posInf else .fin 30) (by decide +kernel) (by decide +kernel)
    layered_call

theorem layered_call_out : call layeredEnv 12 (-55) =
    .ok [(1, [(1 / 2, -20)]), (2, [(1 / 2, -20)]), (3, [(1 / 2, -15)]), (4, [(1 / 2, 0)]),
      (5, [(1 / 2, 0)]), (6, [(1 / 2, 0)])] := by
  decide +kernel

theorem layered_root (n : ℕ) : layeredEnv.tree.root ∉ childNodes layeredEnv n := by
  change 0 ∉ childNodes layeredEnv n
  unfold childNodes layeredEnv
  simp only
  split_ifs <;> simp

example : layered.accs.map (given [(1, [(1 / 2, -20)]), (2, [(1 / 2, -20)]), (3, [(1 / 2, -15)]),
      (4, [(1 / 2, (0 : ℚ))]), (5, [(1 / 2, 0)]), (6, [(1 / 2, 0)])]) =
    (fill ⌊-(-55 : ℚ) / (1 / 2)⌋ (layered.accs.map fun _ => some ⌊(20 : ℚ) / (1 / 2)⌋)).map
      fun x : ℤ => -((1 / 2 : ℚ) * x) :=
  C70_outflows_in_order layered_optimal (plain_answers fun _ _ _ => rfl).1
    (plain_answers fun _ _ _ => rfl).2 (by decide +kernel) (by decide +kernel)
    (layered_nested _) layered_edges rfl layered_root (fun _ => 20) (by decide +kernel)
    (by
      intro a ha
      exact ⟨0, rfl, le_rfl⟩) layered_call_out

/-- `nestedTree` of C69 as a forest. -/
def nestedForest : Forest ℕ ℕ :=
  .leaf 1 1 (.leaf 2 2 (.leaf 3 3 (.node 4 (.leaf 5 5 (.leaf 6 6 (.leaf 7 7 .nil)))
    (.leaf 8 8 .nil))))

theorem nested_nested (lim : Lim) : Nested nestedEnv lim nestedForest := by
  refine ⟨rfl, rfl, ?_, ⟨by decide, by decide⟩⟩
  simp [nestedForest, Forest.Fits, nestedEnv, nestedTree, Forest.roots]

/-- In the tree of `C69_nested_priority_refuted` account 7 is before account 8, but has the larger
penalty. -/
example : (7, 5) ∈ nestedForest.pens 0 0 ∧ (8, 4) ∈ nestedForest.pens 0 0 ∧
    ¬ nestedForest.EdgesOnly true := by
  refine ⟨by decide, by decide, ?_⟩
  simp [nestedForest, Forest.EdgesOnly, Forest.Single]

theorem nested_call' : call nestedEnv 12 550 = .ok [(1, [(1 / 2, 100)]), (2, [(1 / 2, 100)]),
    (3, [(1 / 2, 100)]), (5, [(1 / 2, 100)]), (6, [(1 / 2, 100)]), (7, [(1 / 2, 0)]),
    (8, [(1 / 2, 50)])] := by
  decide +kernel

example : given [(1, [(1 / 2, 100)]), (2, [(1 / 2, 100)]), (3, [(1 / 2, 100)]),
    (5, [(1 / 2, 100)]), (6, [(1 / 2, 100)]), (7, [(1 / 2, (0 : ℚ))]), (8, [(1 / 2, 50)])] 7 = 0 :=
  C70_by_penalty nested_optimal (plain_answers fun _ _ _ => rfl).1
    (plain_answers fun _ _ _ => rfl).2 (by decide +kernel) (by decide +kernel)
    (nested_nested _) (nested_nested _) (fun _ => .fin 100) (fun _ _ => rfl)
    (fun _ _ => ⟨rfl, by simp⟩) nested_call' (a := 8) (p := 4) (q := 5) (by decide) (by decide)
    (by decide) (by decide +kernel)

theorem nested_call'' : call nestedEnv 12 450 = .ok [(1, [(1 / 2, 100)]), (2, [(1 / 2, 100)]),
    (3, [(1 / 2, 100)]), (5, [(1 / 2, 100)]), (6, [(1 / 2, 50)]), (7, [(1 / 2, 0)]),
    (8, [(1 / 2, 0)])] := by
  decide +kernel

example : given [(1, [(1 / 2, 100)]), (2, [(1 / 2, 100)]), (3, [(1 / 2, 100)]),
    (5, [(1 / 2, 100)]), (6, [(1 / 2, 50)]), (7, [(1 / 2, (0 : ℚ))]), (8, [(1 / 2, 0)])] 7 = 0 :=
  C70_same_list nested_optimal (plain_answers fun _ _ _ => rfl).1
    (plain_answers fun _ _ _ => rfl).2 (by decide +kernel) (by decide +kernel)
    (nested_nested _) (nested_nested _) (fun _ => .fin 100) (fun _ _ => rfl)
    (fun _ _ => ⟨rfl, by simp⟩) nested_call'' (a := 6) (b := 7)
    (by simp [nestedForest, Forest.Before, Forest.tops]) (by decide +kernel)

example : (450 : ℚ) - 1 < (nestedForest.accs.map (given [(1, [(1 / 2, 100)]), (2, [(1 / 2, 100)]),
    (3, [(1 / 2, 100)]), (5, [(1 / 2, 100)]), (6, [(1 / 2, 50)]), (7, [(1 / 2, (0 : ℚ))]),
    (8, [(1 / 2, 0)])])).sum :=
  C70_nothing_left_over nested_optimal (plain_answers fun _ _ _ => rfl).1
    (plain_answers fun _ _ _ => rfl).2 (by decide +kernel) (by decide +kernel)
    (nested_nested _) (nested_nested _) (fun _ => .fin 100) (fun _ _ => rfl)
    (fun _ _ => ⟨rfl, by simp⟩) nested_call'' 7 (by decide) (by decide +kernel)

end Cases

end Forecaster.Traversal
