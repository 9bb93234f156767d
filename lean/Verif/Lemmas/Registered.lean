import Verif.Model.Registered
import Verif.Lemmas.Account
import Mathlib.Data.List.Forall2
import Mathlib.Algebra.BigOperators.Group.Finset.Basic
import Mathlib.Tactic.LinearCombination

/-! Helper lemmas for `Verif/Props/Registered.lean`. -/

namespace Forecaster.Registered

open Forecaster Forecaster.Timing Forecaster.Account Forecaster.Inflation

variable {K : Type} [Field K] [LinearOrder K] [IsStrictOrderedRing K]

theorem forall₂_get {α β : Type} {R : α → β → Prop} {l : List α} {l' : List β}
    (h : List.Forall₂ R l l') {k : ℕ} {a : α} (e : l[k]? = some a) :
    ∃ b, l'[k]? = some b ∧ R a b := by
  induction h generalizing k with
  | nil => simp at e
  | cons hab h ih =>
    cases k with
    | zero => simp at e; subst e; exact ⟨_, by simp, hab⟩
    | succ k => simpa using ih (by simpa using e)

theorem forall₂_set {α : Type} {R : α → α → Prop} (hr : ∀ a, R a a) {l : List α} {i : ℕ} {a a' : α}
    (e : l[i]? = some a) (h : R a a') : List.Forall₂ R l (l.set i a') := by
  induction l generalizing i with
  | nil => simp at e
  | cons b l ih =>
    cases i with
    | zero => simp at e; subst e; exact .cons h (List.forall₂_same.2 fun x _ => hr x)
    | succ i => exact .cons (hr b) (ih (by simpa using e))

theorem get?_del_ne {κ ν : Type} [DecidableEq κ] (d : Dict κ ν) {k k' : κ} (h : k ≠ k') :
    Dict.get? (Dict.del d k) k' = Dict.get? d k' := by
  induction d with
  | nil => rfl
  | cons a d ih =>
    unfold Dict.del
    split_ifs with e
    · rw [Dict.get?_cons, if_neg (by rw [e]; exact h)]
    · rw [Dict.get?_cons, Dict.get?_cons, ih]

theorem addTransaction_shape {a a' : Acct K} {v : K} {w : When K}
    (h : addTransaction a v w = .ok a') : ∃ d, a' = { a with txns := d } := by
  unfold addTransaction at h
  cases hw : whenConv w with
  | error e => simp [hw] at h
  | ok t => simp only [hw, ok_bind, Except.ok.injEq] at h; exact ⟨_, h.symm⟩

theorem addTo_spec {g g' : Grp K} {i : ℕ} {v : K} {w : When K} (h : addTo g i v w = .ok g') :
    ∃ r a, g.accts[i]? = some r ∧ addTransaction r.acct v w = .ok a ∧
      g' = { g with accts := g.accts.set i { r with acct := a } } := by
  unfold addTo at h
  cases hi : g.accts[i]? with
  | none => rw [hi] at h; cases h
  | some r =>
    rw [hi] at h
    simp only at h
    cases ha : addTransaction r.acct v w with
    | error e => rw [ha] at h; cases h
    | ok a => rw [ha] at h; cases h; exact ⟨r, a, rfl, ha, rfl⟩

/-! ### advancing one account -/

/-- The account after `advance`. -/
theorem advance_spec {g : Grp K} {r : Reg K} (h : Inv r.acct) :
    ∃ r', advance g r = .ok r' ∧ r'.acct.year = r.acct.year + 1 ∧ Inv r'.acct ∧
      Account.nextYear r.acct = .ok r'.acct ∧ r'.inputs = r.inputs ∧
      Dict.get? r'.roomHist r.acct.year = some (contributionRoom g r) ∧
      ∀ y, y ≠ r.acct.year → Dict.get? r'.roomHist y = Dict.get? r.roomHist y := by
  obtain ⟨b, hb⟩ := h.balance_ok
  have hn := nextYear_eq hb
  unfold advance
  rw [hn]
  refine ⟨_, rfl, rfl, inv_nextYear h hn, rfl, rfl, ?_, ?_⟩
  · simp only
    split_ifs with hk
    · obtain ⟨v, hv⟩ := Dict.mem_keys_iff.1 hk
      simp [contributionRoom, hv]
    · rw [Dict.get?_set, if_pos rfl]
      simp [contributionRoom, Dict.get?_eq_none.2 hk]
  · intro y hy
    simp only
    split_ifs with hk
    · rfl
    · exact Dict.get?_set_ne _ _ (Ne.symm hy)

theorem advance_congr {g g' : Grp K} (h : g.room = g'.room) (r : Reg K) :
    advance g r = advance g' r := by
  unfold advance; rw [h]

/-- Some accounts of year `y` have been advanced, with the same shared room. -/
structure Moved (y : ℤ) (g g' : Grp K) : Prop where
  room : g'.room = g.room
  each : List.Forall₂ (fun r r' => r' = r ∨ (r.acct.year = y ∧ advance g r = .ok r'))
    g.accts g'.accts

theorem moved_refl (y : ℤ) (g : Grp K) : Moved y g g :=
  ⟨rfl, List.forall₂_same.2 fun _ _ => Or.inl rfl⟩

/-- A group in the middle of being advanced from `y` to `y + 1`, with at most `n` accounts left. -/
structure Mid (y : ℤ) (n : ℕ) (g : Grp K) : Prop where
  inv : ∀ s ∈ g.accts, Inv s.acct
  yrs : ∀ s ∈ g.accts, s.acct.year = y ∨ s.acct.year = y + 1
  ahead : ∃ s ∈ g.accts, s.acct.year = y + 1
  left : g.accts.countP (fun s => decide (s.acct.year = y)) ≤ n

theorem moved_trans {y : ℤ} {g g' g'' : Grp K} (hi : ∀ s ∈ g.accts, Inv s.acct)
    (h : Moved y g g') (h' : Moved y g' g'') : Moved y g g'' := by
  have hr := h.room
  have key : ∀ l l' l'' : List (Reg K), (∀ s ∈ l, Inv s.acct) →
      List.Forall₂ (fun r r' => r' = r ∨ (r.acct.year = y ∧ advance g r = .ok r')) l l' →
      List.Forall₂ (fun r r' => r' = r ∨ (r.acct.year = y ∧ advance g' r = .ok r')) l' l'' →
      List.Forall₂ (fun r r' => r' = r ∨ (r.acct.year = y ∧ advance g r = .ok r')) l l'' := by
    intro l l' l'' hi h1 h2
    induction h1 generalizing l'' with
    | nil => cases h2; exact .nil
    | @cons a b l l' hab _ ih =>
      cases h2 with
      | cons hbc h2 =>
        refine .cons ?_ (ih _ (fun s hs => hi s (by simp [hs])) h2)
        rcases hab with rfl | ⟨ha, hadv⟩
        · rcases hbc with rfl | ⟨hb, hadv⟩
          · exact Or.inl rfl
          · exact Or.inr ⟨hb, by rw [← hadv]; exact advance_congr hr.symm _⟩
        · rcases hbc with rfl | ⟨hb, -⟩
          · exact Or.inr ⟨ha, hadv⟩
          · obtain ⟨r', e, hy, -⟩ := advance_spec (g := g) (hi a (by simp))
            rw [hadv] at e
            cases e
            omega
  exact ⟨h'.room.trans h.room, key _ _ _ hi h.each h'.each⟩

theorem mid_moved {y : ℤ} {n : ℕ} {g g' : Grp K} (h : Mid y n g) (hm : Moved y g g') :
    Mid y n g' := by
  obtain ⟨hi, hy, ha, hl⟩ := h
  have he := hm.each
  have key : (∀ s ∈ g'.accts, Inv s.acct) ∧ (∀ s ∈ g'.accts, s.acct.year = y ∨ s.acct.year = y + 1)
      ∧ ((∃ s ∈ g.accts, s.acct.year = y + 1) → ∃ s ∈ g'.accts, s.acct.year = y + 1) ∧
      g'.accts.countP (fun s => decide (s.acct.year = y))
        ≤ g.accts.countP (fun s => decide (s.acct.year = y)) := by
    clear ha hl hm
    generalize g.accts = l at *
    generalize g'.accts = l' at *
    induction he with
    | nil => simp
    | @cons a b l l' hab _ ih =>
      obtain ⟨k1, k2, k3, k4⟩ := ih (fun s hs => hi s (by simp [hs])) (fun s hs => hy s (by simp [hs]))
      have hb : Inv b.acct ∧ (b.acct.year = y ∨ b.acct.year = y + 1) ∧
          (a.acct.year = y + 1 → b.acct.year = y + 1) ∧ (b.acct.year = y → a.acct.year = y) := by
        rcases hab with rfl | ⟨h0, hadv⟩
        · exact ⟨hi _ (by simp), hy _ (by simp), id, id⟩
        · obtain ⟨r', e, e1, e2, -⟩ := advance_spec (g := g) (hi a (by simp))
          rw [hadv] at e
          cases e
          exact ⟨e2, Or.inr (by omega), fun _ => by omega, fun _ => h0⟩
      refine ⟨?_, ?_, ?_, ?_⟩
      · intro s hs
        rcases List.mem_cons.1 hs with rfl | hs
        · exact hb.1
        · exact k1 s hs
      · intro s hs
        rcases List.mem_cons.1 hs with rfl | hs
        · exact hb.2.1
        · exact k2 s hs
      · rintro ⟨s, hs, h⟩
        rcases List.mem_cons.1 hs with rfl | hs
        · exact ⟨b, by simp, hb.2.2.1 h⟩
        · obtain ⟨t, ht, h'⟩ := k3 ⟨s, hs, h⟩
          exact ⟨t, by simp [ht], h'⟩
      · rw [List.countP_cons, List.countP_cons]
        by_cases hby : b.acct.year = y
        · have := hb.2.2.2 hby
          simp only [hby, this, decide_true, if_true]
          omega
        · simp only [hby, decide_false]
          simp only [Bool.false_eq_true, if_false]
          omega
  exact ⟨key.1, key.2.1, key.2.2.1 ha, key.2.2.2.trans hl⟩

/-- What a recursive call does in the middle. -/
def RecSpec (y : ℤ) (n : ℕ) (rec : Grp K → ℕ → Except PyErr (Grp K)) : Prop :=
  ∀ g j r, Mid y n g → g.accts[j]? = some r → r.acct.year = y →
    ∃ g', rec g j = .ok g' ∧ Moved y g g' ∧ (∀ s ∈ g'.accts, s.acct.year = y + 1) ∧
      g'.contribYear = max g.contribYear (y + 1)

theorem catchUp_spec {y : ℤ} {n : ℕ} {rec : Grp K → ℕ → Except PyErr (Grp K)} (hrec : RecSpec y n rec)
    {g : Grp K} (h : Mid y n g) {j : ℕ} {r : Reg K} (hj : g.accts[j]? = some r) :
    ∃ g', catchUp rec (y + 1) j (behind (y + 1) g j) g = .ok g' ∧ Moved y g g' ∧
      (∃ s, g'.accts[j]? = some s ∧ s.acct.year = y + 1) ∧
      (g'.contribYear = g.contribYear ∨ g'.contribYear = max g.contribYear (y + 1)) := by
  unfold behind
  rw [hj]
  rcases h.yrs r (List.mem_of_getElem? hj) with e | e
  · have e1 : (y + 1 - r.acct.year).toNat = 1 := by omega
    obtain ⟨g', q1, q2, q3, q4⟩ := hrec g j r h hj e
    refine ⟨g', ?_, q2, ?_, Or.inr q4⟩
    · simp only [e1]
      unfold catchUp
      rw [hj]
      simp only
      rw [if_pos (by omega), q1, ok_bind]
      rfl
    · obtain ⟨s, hs, -⟩ := forall₂_get q2.each hj
      exact ⟨s, hs, q3 s (List.mem_of_getElem? hs)⟩
  · have e1 : (y + 1 - r.acct.year).toNat = 0 := by omega
    exact ⟨g, by simp only [e1]; rfl, moved_refl y g, ⟨r, hj, e⟩, Or.inl rfl⟩

theorem loop_spec {y : ℤ} {n : ℕ} {rec : Grp K → ℕ → Except PyErr (Grp K)} (hrec : RecSpec y n rec)
    (L : List ℕ) {g : Grp K} (h : Mid y n g) (hL : ∀ j ∈ L, j < g.accts.length) :
    ∃ g', L.foldlM (fun g j => catchUp rec (y + 1) j (behind (y + 1) g j) g) g = .ok g' ∧
      Moved y g g' ∧ (∀ j ∈ L, ∃ s, g'.accts[j]? = some s ∧ s.acct.year = y + 1) ∧
      (g'.contribYear = g.contribYear ∨ g'.contribYear = max g.contribYear (y + 1)) := by
  induction L generalizing g with
  | nil => exact ⟨g, rfl, moved_refl y g, by simp, Or.inl rfl⟩
  | cons j L ih =>
    obtain ⟨r, hr⟩ : ∃ r, g.accts[j]? = some r :=
      ⟨_, List.getElem?_eq_getElem (hL j (by simp))⟩
    obtain ⟨g1, e1, m1, ⟨s1, hs1, hy1⟩, c1⟩ := catchUp_spec hrec h hr
    have hmid := mid_moved h m1
    have hlen := m1.each.length_eq
    obtain ⟨g2, e2, m2, h2, c2⟩ := ih hmid (fun k hk => by rw [← hlen]; exact hL k (by simp [hk]))
    refine ⟨g2, ?_, moved_trans h.inv m1 m2, ?_, ?_⟩
    · rw [List.foldlM_cons, e1, ok_bind, e2]
    · intro k hk
      rcases List.mem_cons.1 hk with rfl | hk
      · obtain ⟨s, hs, hR⟩ := forall₂_get m2.each hs1
        refine ⟨s, hs, ?_⟩
        rcases hR with rfl | ⟨h0, -⟩
        · exact hy1
        · omega
      · exact h2 k hk
    · rcases c1 with c1 | c1 <;> rcases c2 with c2 | c2 <;> rw [c2, c1] <;> simp

theorem inSync_iff {g : Grp K} {y : ℤ} : inSync g y = true ↔ ∀ s ∈ g.accts, s.acct.year = y := by
  simp [inSync, List.all_eq_true]

theorem countP_set {α : Type} (p : α → Bool) {l : List α} {i : ℕ} {a b : α} (h : l[i]? = some a)
    (ha : p a = true) (hb : p b = false) : (l.set i b).countP p + 1 = l.countP p := by
  induction l generalizing i with
  | nil => simp at h
  | cons c l ih =>
    cases i with
    | zero => simp at h; subst h; simp [List.countP_cons, ha, hb]
    | succ i =>
      have := ih (i := i) (by simpa using h)
      simp only [List.set_cons_succ, List.countP_cons]
      omega

/-- Advancing account `i` and then everybody else. -/
theorem body_spec {y : ℤ} {n : ℕ} {rec : Grp K → ℕ → Except PyErr (Grp K)} (hrec : RecSpec y n rec)
    {g : Grp K} (hinv : ∀ s ∈ g.accts, Inv s.acct)
    (hyrs : ∀ s ∈ g.accts, s.acct.year = y ∨ s.acct.year = y + 1)
    (hleft : g.accts.countP (fun s => decide (s.acct.year = y)) ≤ n + 1)
    {i : ℕ} {r : Reg K} (hi : g.accts[i]? = some r) (hy : r.acct.year = y) :
    ∃ r' g', advance g r = .ok r' ∧ r'.acct.year = y + 1 ∧
      (List.range (g.accts.set i r').length).foldlM
        (fun g j => catchUp rec (y + 1) j (behind (y + 1) g j) g)
        { g with accts := g.accts.set i r' } = .ok g' ∧
      Moved y g g' ∧ (∀ s ∈ g'.accts, s.acct.year = y + 1) ∧ g'.accts[i]? = some r' ∧
      (g'.contribYear = g.contribYear ∨ g'.contribYear = max g.contribYear (y + 1)) := by
  have hri := hinv r (List.mem_of_getElem? hi)
  obtain ⟨r', e, e1, e2, -⟩ := advance_spec (g := g) hri
  have hlt : i < g.accts.length := by
    by_contra hc
    rw [List.getElem?_eq_none (by omega)] at hi
    cases hi
  have hi' : (g.accts.set i r')[i]? = some r' := by simp [hlt]
  have hm1 : Moved y g { g with accts := g.accts.set i r' } :=
    ⟨rfl, forall₂_set (R := fun (r r' : Reg K) => r' = r ∨ (r.acct.year = y ∧ advance g r = .ok r'))
      (fun _ => Or.inl rfl) hi (Or.inr ⟨hy, e⟩)⟩
  have hmid : Mid y n { g with accts := g.accts.set i r' } := by
    have hmem : ∀ s ∈ g.accts.set i r', s = r' ∨ s ∈ g.accts := by
      intro s hs
      rcases List.mem_or_eq_of_mem_set hs with h | h
      · exact Or.inr h
      · exact Or.inl h
    refine ⟨?_, ?_, ⟨r', List.mem_of_getElem? hi', by omega⟩, ?_⟩
    · intro s hs
      rcases hmem s hs with rfl | h
      · exact e2
      · exact hinv s h
    · intro s hs
      rcases hmem s hs with rfl | h
      · exact Or.inr (by omega)
      · exact hyrs s h
    · have := countP_set (fun s : Reg K => decide (s.acct.year = y)) (b := r') hi
        (by simp [hy]) (by simp; omega)
      simp only
      omega
  obtain ⟨g', q1, q2, q3, q4⟩ := loop_spec hrec (List.range (g.accts.set i r').length) hmid
    (fun j hj => by simpa using hj)
  refine ⟨r', g', e, by omega, q1, moved_trans hinv hm1 q2, ?_, ?_, q4⟩
  · intro s hs
    obtain ⟨j, hj⟩ := List.getElem?_of_mem hs
    have hjl : j < (g.accts.set i r').length := by
      have := q2.each.length_eq
      simp only at this
      rw [this]
      by_contra hc
      rw [List.getElem?_eq_none (by omega)] at hj
      cases hj
    obtain ⟨t, ht, hty⟩ := q3 j (by simpa using hjl)
    rw [hj] at ht
    cases ht
    exact hty
  · obtain ⟨s, hs, hR⟩ := forall₂_get q2.each hi'
    rw [hs]
    rcases hR with rfl | ⟨h0, -⟩
    · rfl
    · omega

theorem nextYear_mid (next : Grp K → Reg K → Except PyErr K) (y : ℤ) (n : ℕ) :
    RecSpec y n (nextYear next n) := by
  induction n with
  | zero =>
    intro g j r h hj hy
    exfalso
    have h0 := h.left
    rw [Nat.le_zero, List.countP_eq_zero] at h0
    exact h0 r (List.mem_of_getElem? hj) (by simp [hy])
  | succ n ih =>
    intro g j r h hj hy
    obtain ⟨r', g', e, ey, q1, q2, q3, -, q5⟩ := body_spec ih h.inv h.yrs h.left hj hy
    have hns : inSync g r.acct.year = false := by
      rw [Bool.eq_false_iff]
      intro hc
      obtain ⟨s, hs, hsy⟩ := h.ahead
      have := inSync_iff.1 hc s hs
      omega
    refine ⟨{ g' with contribYear := max g'.contribYear (y + 1) }, ?_, ⟨q2.room, q2.each⟩, q3, ?_⟩
    · unfold nextYear
      rw [hj]
      simp only [plannedRoom, hns, Bool.false_eq_true, if_false, ok_bind, e, ey]
      rw [q1, ok_bind]
    · rcases q5 with q5 | q5 <;> simp [q5]

/-- Advancing any account of a group that is in step. -/
theorem nextYear_sync (next : Grp K → Reg K → Except PyErr K) {g : Grp K} {y : ℤ}
    (hsync : ∀ s ∈ g.accts, s.acct.year = y) (hinv : ∀ s ∈ g.accts, Inv s.acct)
    {i : ℕ} {r : Reg K} (hi : g.accts[i]? = some r) {v : K}
    (hv : plannedRoom next g r = .ok (some v)) {fuel : ℕ} (hf : g.accts.length ≤ fuel) :
    ∃ r' g', advance g r = .ok r' ∧ r'.acct.year = y + 1 ∧ Moved y g g' ∧
      (∀ s ∈ g'.accts, s.acct.year = y + 1) ∧ g'.accts[i]? = some r' ∧
      (g'.contribYear = max g.contribYear (y + 1)) ∧
      nextYear next fuel g i = setContributionRoom g' i v := by
  have hlt : i < g.accts.length := by
    by_contra hc
    rw [List.getElem?_eq_none (by omega)] at hi
    cases hi
  obtain ⟨n, rfl⟩ : ∃ n, fuel = n + 1 := ⟨fuel - 1, by omega⟩
  obtain ⟨r', g', e, ey, q1, q2, q3, q4, q5⟩ := body_spec (nextYear_mid next y n) hinv
    (fun s hs => Or.inl (hsync s hs)) (le_trans (List.countP_le_length) hf) hi
    (hsync r (List.mem_of_getElem? hi))
  refine ⟨r', { g' with contribYear := max g'.contribYear (y + 1) }, e, ey, ⟨q2.room, q2.each⟩,
    q3, q4, ?_, ?_⟩
  · rcases q5 with q5 | q5 <;> simp [q5]
  · conv_lhs => unfold nextYear
    rw [hi]
    simp only [hv, ok_bind, e, ey]
    rw [q1, ok_bind]

/-! ### groups that are not in step -/

/-- Years only go up, and to `y` at most. -/
structure Up (y : ℤ) (g g' : Grp K) : Prop where
  each : List.Forall₂ (fun (r r' : Reg K) => r.acct.year ≤ r'.acct.year ∧
    r'.acct.year ≤ max r.acct.year y) g.accts g'.accts
  lo : g.contribYear ≤ g'.contribYear
  hi : g'.contribYear ≤ max g.contribYear y

theorem up_refl (y : ℤ) (g : Grp K) : Up y g g :=
  ⟨List.forall₂_same.2 fun _ _ => ⟨le_rfl, le_max_left _ _⟩, le_rfl, le_max_left _ _⟩

theorem up_trans {y : ℤ} {g g' g'' : Grp K} (h : Up y g g') (h' : Up y g' g'') : Up y g g'' := by
  refine ⟨?_, h.lo.trans h'.lo, h'.hi.trans (max_le h.hi (le_max_right _ _))⟩
  have h1 := h.each
  have h2 := h'.each
  revert h1 h2
  generalize g.accts = l
  generalize g'.accts = l'
  generalize g''.accts = l''
  intro h1 h2
  induction h1 generalizing l'' with
  | nil => cases h2; exact .nil
  | cons hab _ ih =>
    cases h2 with
    | cons hbc h2 =>
      exact .cons ⟨hab.1.trans hbc.1, hbc.2.trans (max_le hab.2 (le_max_right _ _))⟩ (ih _ h2)

theorem up_mono {y y' : ℤ} (hy : y ≤ y') {g g' : Grp K} (h : Up y g g') : Up y' g g' :=
  ⟨h.each.imp fun _ _ hh => ⟨hh.1, hh.2.trans (max_le_max le_rfl hy)⟩, h.lo,
    h.hi.trans (max_le_max le_rfl hy)⟩

theorem advance_year {g : Grp K} {r r' : Reg K} (h : advance g r = .ok r') :
    r'.acct.year = r.acct.year + 1 := by
  unfold advance Account.nextYear at h
  cases hb : Account.balance r.acct with
  | error e => rw [hb] at h; cases h
  | ok b => rw [hb] at h; cases h; rfl

theorem setRoom_up {y : ℤ} {g g' : Grp K} {i : ℕ} {v : K} (h : setContributionRoom g i v = .ok g') :
    Up y g g' ∧ g'.contribYear = g.contribYear ∧
      List.Forall₂ (fun (r r' : Reg K) => r'.acct = r.acct) g.accts g'.accts := by
  unfold setContributionRoom at h
  cases hi : g.accts[i]? with
  | none => rw [hi] at h; cases h
  | some r =>
    rw [hi] at h
    simp only at h
    split_ifs at h
    · cases h; exact ⟨up_refl y _, rfl, List.forall₂_same.2 fun _ _ => rfl⟩
    · cases h
      have hs : List.Forall₂ (fun (r r' : Reg K) => r'.acct = r.acct) g.accts
          (g.accts.set i { r with roomHist := Dict.del r.roomHist r.acct.year }) :=
        forall₂_set (R := fun (r r' : Reg K) => r'.acct = r.acct) (fun _ => rfl) hi rfl
      exact ⟨⟨hs.imp fun _ _ hh => by rw [hh]; exact ⟨le_rfl, le_max_left _ _⟩, le_rfl,
        le_max_left _ _⟩, rfl, hs⟩

theorem catchUp_up {y : ℤ} {rec : Grp K → ℕ → Except PyErr (Grp K)}
    (hrec : ∀ g j g', rec g j = .ok g' → ∃ r, g.accts[j]? = some r ∧ Up (r.acct.year + 1) g g' ∧
      ∀ s ∈ g'.accts, r.acct.year + 1 ≤ s.acct.year) (j : ℕ) (n : ℕ) (g g' : Grp K)
    (h : catchUp rec y j n g = .ok g') :
    Up y g g' ∧ ((behind y g j ≤ n) → ∀ s, g'.accts[j]? = some s → y ≤ s.acct.year) := by
  induction n generalizing g with
  | zero =>
    cases h
    refine ⟨up_refl y _, fun hb s hs => ?_⟩
    unfold behind at hb
    rw [hs] at hb
    simp only at hb
    omega
  | succ n ih =>
    unfold catchUp at h
    cases hj : g.accts[j]? with
    | none => rw [hj] at h; cases h
    | some r =>
      rw [hj] at h
      simp only at h
      split_ifs at h with hlt
      · cases hr : rec g j with
        | error e => rw [hr] at h; cases h
        | ok g1 =>
          rw [hr, ok_bind] at h
          obtain ⟨r0, e0, u0, f0⟩ := hrec g j g1 hr
          rw [hj] at e0
          cases e0
          obtain ⟨u1, f1⟩ := ih g1 h
          refine ⟨up_trans (up_mono (by omega) u0) u1, fun hb => f1 ?_⟩
          unfold behind at hb ⊢
          rw [hj] at hb
          simp only at hb
          obtain ⟨s, hs, -⟩ := forall₂_get u0.each hj
          rw [hs]
          have := f0 s (List.mem_of_getElem? hs)
          simp only
          omega
      · cases h
        refine ⟨up_refl y _, fun _ s hs => ?_⟩
        rw [hj] at hs
        cases hs
        omega

theorem loop_up {y : ℤ} {rec : Grp K → ℕ → Except PyErr (Grp K)}
    (hrec : ∀ g j g', rec g j = .ok g' → ∃ r, g.accts[j]? = some r ∧ Up (r.acct.year + 1) g g' ∧
      ∀ s ∈ g'.accts, r.acct.year + 1 ≤ s.acct.year) (L : List ℕ) (g g' : Grp K)
    (h : L.foldlM (fun g j => catchUp rec y j (behind y g j) g) g = .ok g') :
    Up y g g' ∧ ∀ j ∈ L, ∀ s, g'.accts[j]? = some s → y ≤ s.acct.year := by
  induction L generalizing g with
  | nil => cases h; exact ⟨up_refl y _, by simp⟩
  | cons j L ih =>
    rw [List.foldlM_cons] at h
    cases hc : catchUp rec y j (behind y g j) g with
    | error e => rw [hc] at h; cases h
    | ok g1 =>
      rw [hc, ok_bind] at h
      obtain ⟨u1, f1⟩ := catchUp_up hrec j _ g g1 hc
      obtain ⟨u2, f2⟩ := ih g1 h
      refine ⟨up_trans u1 u2, fun k hk s hs => ?_⟩
      rcases List.mem_cons.1 hk with rfl | hk
      · cases hj : g1.accts[k]? with
        | none =>
          exfalso
          have := u2.each.length_eq
          rw [List.getElem?_eq_none_iff] at hj
          rw [List.getElem?_eq_none (by omega)] at hs
          cases hs
        | some t =>
          have h1 := f1 le_rfl t hj
          obtain ⟨s', hs', hR⟩ := forall₂_get u2.each hj
          rw [hs] at hs'
          cases hs'
          omega
      · exact f2 k hk s hs

theorem nextYear_up (next : Grp K → Reg K → Except PyErr K) (fuel : ℕ) (g : Grp K) (i : ℕ)
    (g' : Grp K) (h : nextYear next fuel g i = .ok g') :
    ∃ r, g.accts[i]? = some r ∧ Up (r.acct.year + 1) g g' ∧
      (∀ s ∈ g'.accts, r.acct.year + 1 ≤ s.acct.year) ∧ r.acct.year + 1 ≤ g'.contribYear := by
  induction fuel generalizing g i g' with
  | zero => cases h
  | succ fuel ih =>
    unfold nextYear at h
    cases hi : g.accts[i]? with
    | none => rw [hi] at h; cases h
    | some r =>
      rw [hi] at h
      simp only at h
      cases hp : plannedRoom next g r with
      | error e => rw [hp] at h; cases h
      | ok v =>
      rw [hp, ok_bind] at h
      cases ha : advance g r with
      | error e => rw [ha] at h; cases h
      | ok r' =>
      rw [ha, ok_bind] at h
      have hy := advance_year ha
      rw [hy] at h
      have u0 : Up (r.acct.year + 1) g { g with accts := g.accts.set i r' } :=
        ⟨forall₂_set (R := fun (s s' : Reg K) => s.acct.year ≤ s'.acct.year ∧
          s'.acct.year ≤ max s.acct.year (r.acct.year + 1)) (fun _ => ⟨le_rfl, le_max_left _ _⟩) hi
          ⟨by omega, by rw [hy]; exact le_max_right _ _⟩, le_rfl, le_max_left _ _⟩
      revert h
      have hlen : (g.accts.set i r').length
          = ({ g with accts := g.accts.set i r' } : Grp K).accts.length := rfl
      simp only [hlen]
      generalize ({ g with accts := g.accts.set i r' } : Grp K) = g1 at u0
      intro h
      cases hl : (List.range g1.accts.length).foldlM
          (fun g j => catchUp (nextYear next fuel) (r.acct.year + 1) j
            (behind (r.acct.year + 1) g j) g) g1 with
      | error e => rw [hl] at h; cases h
      | ok g2 =>
      rw [hl, ok_bind] at h
      obtain ⟨u1, f1⟩ := loop_up (fun g j g' hh => by
        obtain ⟨r, a, b, c, -⟩ := ih g j g' hh
        exact ⟨r, a, b, c⟩) _ g1 g2 hl
      have f2 : ∀ s ∈ g2.accts, r.acct.year + 1 ≤ s.acct.year := by
        intro s hs
        obtain ⟨j, hj⟩ := List.getElem?_of_mem hs
        refine f1 j ?_ s hj
        rw [List.mem_range, u1.each.length_eq]
        by_contra hc
        rw [List.getElem?_eq_none (by omega)] at hj
        cases hj
      have u2 := up_trans u0 u1
      refine ⟨r, rfl, ?_⟩
      have u3 : Up (r.acct.year + 1) g2
          { g2 with contribYear := max g2.contribYear (r.acct.year + 1) } :=
        ⟨(up_refl _ g2).each, le_max_left _ _, le_rfl⟩
      cases v with
      | none =>
        simp only at h
        cases h
        exact ⟨up_trans u2 u3, f2, le_max_right _ _⟩
      | some v =>
        simp only at h
        obtain ⟨u4, e4, s4⟩ := setRoom_up (y := r.acct.year + 1) h
        refine ⟨up_trans u2 (up_trans u3 u4), fun s hs => ?_, by rw [e4]; exact le_max_right _ _⟩
        obtain ⟨j, hj⟩ := List.getElem?_of_mem hs
        obtain ⟨t, ht, hR⟩ := forall₂_get s4.flip hj
        rw [hR]
        exact f2 t (List.mem_of_getElem? ht)

/-! ### conservation of room in a one-account group -/

/-- What has been recorded for year `y`. -/
def recorded (r : Reg K) (y : ℤ) : Dict K K := (Dict.get? r.acct.txHist y).getD []

/-- State of a one-account group `n` years after `y0`. -/
structure SInv (flow : Dict K K → K) (acc : ℤ → K) (y0 : ℤ) (room0 : K) (n : ℕ) (g : Grp K)
    (r : Reg K) : Prop where
  one : g.accts = [r]
  year : r.acct.year = y0 + n
  inv : Inv r.acct
  inputs : r.inputs = []
  fut : ∀ y, y0 + n ≤ y → Dict.get? r.roomHist y = none
  eq : g.room + ∑ k ∈ Finset.range n, flow (recorded r (y0 + k))
    = room0 + ∑ k ∈ Finset.range n, acc (y0 + k + 1)

theorem sinv_add {flow : Dict K K → K} {acc : ℤ → K} {y0 : ℤ} {room0 : K} {n : ℕ} {g g' : Grp K}
    {r : Reg K} (h : SInv flow acc y0 room0 n g r) {i : ℕ} {v : K} {w : When K}
    (e : addTo g i v w = .ok g') : ∃ r', SInv flow acc y0 room0 n g' r' := by
  obtain ⟨s, a, hi, ha, rfl⟩ := addTo_spec e
  rw [h.one] at hi
  cases i with
  | succ i => simp at hi
  | zero =>
    simp at hi
    subst hi
    have hinv := inv_addTransaction h.inv ha
    obtain ⟨d, rfl⟩ := addTransaction_shape ha
    exact ⟨{ r with acct := { r.acct with txns := d } }, by simp [h.one], h.year, hinv, h.inputs,
      h.fut, h.eq⟩

theorem sinv_next {next : Grp K → Reg K → Except PyErr K} {flow : Dict K K → K} {acc : ℤ → K}
    {y0 : ℤ} {room0 : K} {n : ℕ} {g g' : Grp K}
    {r : Reg K} (h : SInv flow acc y0 room0 n g r)
    (hnext : ∀ g r, r.acct.year = y0 + n →
      next g r = .ok (acc (r.acct.year + 1) + (contributionRoom g r - flow r.acct.txns)))
    {i fuel : ℕ} (e : nextYear next fuel g i = .ok g') :
    ∃ r', SInv flow acc y0 room0 (n + 1) g' r' := by
  have hsync : ∀ s ∈ g.accts, s.acct.year = y0 + n := by
    intro s hs; rw [h.one] at hs; simp at hs; subst hs; exact h.year
  have hinv : ∀ s ∈ g.accts, Inv s.acct := by
    intro s hs; rw [h.one] at hs; simp at hs; subst hs; exact h.inv
  cases fuel with
  | zero => cases e
  | succ fuel =>
  cases i with
  | succ i =>
    unfold nextYear at e
    rw [h.one] at e
    simp at e
  | zero =>
    have hi : g.accts[0]? = some r := by rw [h.one]; rfl
    have hroom : contributionRoom g r = g.room := by
      unfold contributionRoom
      rw [h.year, h.fut _ le_rfl]
    have hp : plannedRoom next g r = .ok (some (acc (r.acct.year + 1)
        + (contributionRoom g r - flow r.acct.txns))) := by
      unfold plannedRoom
      rw [if_pos (inSync_iff.2 (by rw [h.year]; exact hsync)), h.fut _ (by rw [h.year]; omega),
        hnext g r h.year]
      rfl
    obtain ⟨r', g1, e1, ey, q2, q3, q4, -, q6⟩ := nextYear_sync next hsync hinv hi hp
      (fuel := fuel + 1) (by rw [h.one]; simp)
    obtain ⟨r1, e2, f1, f2, f3, f4, f5, f6⟩ := advance_spec (g := g) h.inv
    rw [e1] at e2
    cases e2
    rw [e] at q6
    have hone : g1.accts = [r'] := by
      have := q2.each.length_eq
      rw [h.one] at this
      obtain ⟨x, hx⟩ := List.length_eq_one_iff.1 this.symm
      rw [hx] at q4
      simp at q4
      rw [hx, q4]
    unfold setContributionRoom at q6
    rw [q4] at q6
    simp only [f4, h.inputs, Dict.keys, List.map_nil, List.not_mem_nil, if_false] at q6
    cases q6
    have hyr := h.year
    refine ⟨{ r' with roomHist := Dict.del r'.roomHist r'.acct.year }, by simp [hone, f4, h.inputs], ?_, f2, ?_,
      ?_, ?_⟩
    · simp only; rw [ey]; push_cast; ring
    · simp only; rw [f4, h.inputs]
    · intro y hy
      have hy' : y0 + n + 1 ≤ y := by push_cast at hy; omega
      have hg : Dict.get? r'.roomHist y = none := by
        rw [f6 y (by omega)]
        exact h.fut y (by omega)
      simp only
      rw [Dict.get?_eq_none] at hg ⊢
      intro hc
      exact hg ((List.Sublist.map Prod.fst (Dict.del_sublist _ _)).subset hc)
    · have hrec : ∀ y, recorded r' y = if y = r.acct.year then r.acct.txns else recorded r y := by
        intro y
        obtain ⟨b, hb⟩ := h.inv.balance_ok
        rw [nextYear_eq hb] at f3
        have : r'.acct.txHist = Dict.set r.acct.txHist r.acct.year r.acct.txns := by
          rw [← Except.ok.inj f3]
        unfold recorded
        rw [this, Dict.get?_set]
        by_cases hy : r.acct.year = y
        · rw [if_pos hy, if_pos hy.symm]; rfl
        · rw [if_neg hy, if_neg (Ne.symm hy)]
      have hsum : ∑ k ∈ Finset.range n, flow (recorded r' (y0 + k))
          = ∑ k ∈ Finset.range n, flow (recorded r (y0 + k)) := by
        refine Finset.sum_congr rfl fun k hk => ?_
        rw [hrec, if_neg]
        have := Finset.mem_range.1 hk
        omega
      have hrec' : ∀ y, recorded { r' with roomHist := Dict.del r'.roomHist r'.acct.year } y
        = recorded r' y := fun _ => rfl
      simp only [hrec']
      rw [Finset.sum_range_succ, Finset.sum_range_succ, hsum, hrec, if_pos h.year.symm, hroom]
      have := h.eq
      rw [h.year]
      linear_combination this

theorem sinv_run {next : Grp K → Reg K → Except PyErr K} {flow : Dict K K → K} {acc : ℤ → K}
    {y0 : ℤ} {room0 : K} {N : ℕ} {g : Grp K} {m : ℕ}
    {r : Reg K} (h : SInv flow acc y0 room0 m g r)
    (hnext : ∀ g r, y0 ≤ r.acct.year → r.acct.year < y0 + N →
      next g r = .ok (acc (r.acct.year + 1) + (contributionRoom g r - flow r.acct.txns)))
    (fuel : ℕ) (ops : List (Op K)) (hN : ∀ s ∈ (run next fuel g ops).accts, s.acct.year ≤ y0 + N) :
    ∃ n r', SInv flow acc y0 room0 n (run next fuel g ops) r' := by
  unfold run at *
  induction ops generalizing g m r with
  | nil => exact ⟨m, r, h⟩
  | cons op ops ih =>
    rw [List.foldl_cons] at hN ⊢
    cases hop : step next fuel g op with
    | error e => rw [hop] at hN; exact ih h hN
    | ok g1 =>
      rw [hop] at hN
      cases op with
      | add i v w =>
        obtain ⟨r1, h1⟩ := sinv_add h hop
        exact ih h1 hN
      | nextYear i =>
        have hlt : r.acct.year < y0 + N := by
          have hsy : ∀ s ∈ g1.accts, r.acct.year + 1 ≤ s.acct.year := by
            obtain ⟨r0, hr0, -, hlo, -⟩ := nextYear_up next fuel g i g1 hop
            have : r0 = r := by
              have := List.mem_of_getElem? hr0
              rw [h.one] at this
              simpa using this
            rw [← this]
            exact hlo
          have hlen : g1.accts ≠ [] := by
            obtain ⟨r0, hr0, hu, -⟩ := nextYear_up next fuel g i g1 hop
            intro hc
            have := hu.each.length_eq
            rw [hc, h.one] at this
            simp at this
          -- years never go down
          have hmono : ∀ (ops : List (Op K)) (g : Grp K) (y : ℤ), g.accts ≠ [] →
              (∀ s ∈ g.accts, y ≤ s.acct.year) →
              (ops.foldl (fun g op => match step next fuel g op with
                | .ok g' => g' | .error _ => g) g).accts ≠ [] ∧
              ∀ s ∈ (ops.foldl (fun g op => match step next fuel g op with
                | .ok g' => g' | .error _ => g) g).accts, y ≤ s.acct.year := by
            intro ops
            induction ops with
            | nil => exact fun g y h0 h => ⟨h0, h⟩
            | cons op ops ih =>
              intro g y h0 hg
              rw [List.foldl_cons]
              cases hop : step next fuel g op with
              | error e => exact ih g y h0 hg
              | ok g1 =>
                suffices hh : g1.accts ≠ [] ∧ ∀ s ∈ g1.accts, y ≤ s.acct.year from
                  ih g1 y hh.1 hh.2
                cases op with
                | add i v w =>
                  obtain ⟨r, a, hi, ha, rfl⟩ := addTo_spec hop
                  refine ⟨?_, fun s hs => ?_⟩
                  · simpa using h0
                  · rcases List.mem_or_eq_of_mem_set hs with h | rfl
                    · exact hg s h
                    · obtain ⟨t, rfl⟩ := addTransaction_shape ha
                      exact hg r (List.mem_of_getElem? hi)
                | nextYear i =>
                  obtain ⟨r, hr, hu, -⟩ := nextYear_up next fuel g i g1 hop
                  refine ⟨fun hc => ?_, fun s hs => ?_⟩
                  · have := hu.each.length_eq
                    rw [hc] at this
                    exact h0 (List.length_eq_zero_iff.1 this)
                  · obtain ⟨k, hk⟩ := List.getElem?_of_mem hs
                    obtain ⟨t, ht, h1, -⟩ := forall₂_get hu.each.flip hk
                    exact (hg t (List.mem_of_getElem? ht)).trans h1
          obtain ⟨hne, hge⟩ := hmono ops g1 (r.acct.year + 1) hlen hsy
          obtain ⟨s, hs⟩ := List.exists_mem_of_ne_nil _ hne
          have h1 := hge s hs
          have h2 := hN s hs
          omega
        obtain ⟨r1, h1⟩ := sinv_next h
          (fun g r hr => hnext g r (by omega) (by rw [hr, ← h.year]; exact hlt)) hop
        exact ih h1 hN

theorem sinv_init (flow : Dict K K → K) (acc : ℤ → K) (a : Acct K) (ha : Inv a) (room0 : K) (c : ℤ) :
    SInv flow acc a.year room0 0 (single a [] room0 c) ⟨a, [], []⟩ :=
  ⟨rfl, by simp, ha, rfl, fun _ _ => rfl, by simp [single]⟩

end Forecaster.Registered
