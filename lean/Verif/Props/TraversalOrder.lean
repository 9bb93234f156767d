import Verif.Lemmas.TraversalOpt
import Verif.Lemmas.TraversalForestFlow
import Verif.Props.TraversalAccount

/-!
# C68: an ordered list of accounts is filled in order
-/

set_option linter.unusedSectionVars false

namespace Forecaster.Traversal

open Forecaster Forecaster.Timing

variable {K : Type} [Field K] [LinearOrder K] [IsStrictOrderedRing K] [FloorRing K]
variable {N A : Type} [DecidableEq N] [DecidableEq A]

/-! ### Specification -/

/-- Specification: the answers of the flow algorithm are flows of maximal value and, among those,
of minimal cost; walking a set meets its elements and nothing else. -/
structure Optimal (E : Env N A K) : Prop where
  solver : ∀ g f, E.solve g = .ok f → MinCostMaxFlow g f
  sets : ∀ l, ∀ c ∈ E.setOrder l, c ∈ l
  accts : ∀ l a, a ∈ E.acctOrder l ↔ a ∈ l

/-- Specification: asked for an amount that is within its limit, an account gives transactions
for just that amount. -/
structure Exact (E : Env N A K) : Prop where
  inflow : ∀ a lim l x d, lim = .minIn ∨ lim = .maxIn → E.limitOf a lim = .ok l → 0 ≤ x →
    .fin x ≤ l → E.txOf a lim x = .ok d → Dict.WF d ∧ Dict.total d = x
  outflow : ∀ a lim l x d, lim = .minOut ∨ lim = .maxOut → E.limitOf a lim = .ok l → x ≤ 0 →
    l ≤ .fin x → E.txOf a lim x = .ok d → Dict.WF d ∧ Dict.total d = x

/-- Specification: an amount in whole units of the precision; `none` if unlimited. -/
def wholeUnits (p : K) : Ext K → Option ℤ
  | .fin x => some ⌊x / p⌋
  | _ => none

/-- Specification: the room left over when `x` has been used. -/
def roomLeft : Option ℤ → ℤ → Option ℤ
  | some m, x => some (m - x)
  | none, _ => none

/-- Specification: fill up to the minimums in order, then up to the maximums in order. -/
def twoPass (T : ℤ) (lo : List ℤ) (hi : List (Option ℤ)) : List ℤ :=
  let first := fill T (lo.map some)
  let second := fill (T - first.sum) (List.zipWith roomLeft hi first)
  List.zipWith (· + ·) first second

/-! ### Facts about `fill` -/

@[simp] theorem fill_length (T : ℤ) (l : List (Option ℤ)) : (fill T l).length = l.length := by
  induction l generalizing T with
  | nil => rfl
  | cons c l ih => cases c <;> simp [fill, ih]

theorem fill_facts (l : List (Option ℤ)) : ∀ T : ℤ, 0 ≤ T → (∀ c ∈ l, Within c 0) →
    0 ≤ (fill T l).sum ∧ (fill T l).sum ≤ T ∧
    ∀ (i : ℕ) (h : i < l.length),
      (0 ≤ (fill T l)[i]'(by simpa using h) ∧ Within l[i] ((fill T l)[i]'(by simpa using h))) ∧
      (Room l[i] ((fill T l)[i]'(by simpa using h)) → (fill T l).sum = T ∧
        ∀ (j : ℕ) (hj : j < l.length), i < j → (fill T l)[j]'(by simpa using hj) = 0) := by
  induction l with
  | nil => intro T hT _; simp [fill, hT]
  | cons c l ih =>
    intro T hT hl
    have hl' : ∀ c ∈ l, Within c 0 := fun c hc => hl c (List.mem_cons_of_mem _ hc)
    cases c with
    | none =>
      obtain ⟨h1, h2, h3⟩ := ih 0 le_rfl hl'
      have hs : (fill 0 l).sum = 0 := le_antisymm h2 h1
      have hz : ∀ (j : ℕ) (hj : j < l.length), (fill 0 l)[j]'(by simpa using hj) = 0 := by
        intro j hj
        have := fill_zero l hl'
        simp [this]
      refine ⟨by simp [fill, hs, hT], by simp [fill, hs], ?_⟩
      intro i hi
      cases i with
      | zero =>
        refine ⟨⟨by simpa [fill] using hT, trivial⟩, fun _ => ⟨by simp [fill, hs], ?_⟩⟩
        intro j hj hij
        obtain ⟨j, rfl⟩ : ∃ k, j = k + 1 := ⟨j - 1, by omega⟩
        simpa [fill] using hz j (by simpa using hj)
      | succ i =>
        have hi' : i < l.length := by simpa using hi
        obtain ⟨⟨h4, h5⟩, h6⟩ := h3 i hi'
        refine ⟨⟨by simpa [fill] using h4, by simpa [fill] using h5⟩, fun hr => ?_⟩
        refine ⟨by simp [fill, hs], ?_⟩
        intro j hj hij
        obtain ⟨j, rfl⟩ : ∃ k, j = k + 1 := ⟨j - 1, by omega⟩
        simpa [fill] using hz j (by simpa using hj)
    | some c =>
      have hc0 : 0 ≤ c := hl (some c) (by simp)
      have hm0 : 0 ≤ min c T := le_min hc0 hT
      have hmT : min c T ≤ T := min_le_right _ _
      obtain ⟨h1, h2, h3⟩ := ih (T - min c T) (by omega) hl'
      refine ⟨by simp only [fill, List.sum_cons]; omega, by simp only [fill, List.sum_cons]; omega, ?_⟩
      intro i hi
      cases i with
      | zero =>
        refine ⟨⟨by simpa [fill] using ⟨hc0, hT⟩, ?_⟩, fun hr => ?_⟩
        · simp [fill, Within]
        · have hr' : min c T < c := by simpa [fill, Room] using hr
          have hcT : min c T = T := by omega
          have hz := fill_zero l hl'
          refine ⟨by simp [fill, hcT, hz], ?_⟩
          intro j hj hij
          obtain ⟨j, rfl⟩ : ∃ k, j = k + 1 := ⟨j - 1, by omega⟩
          simp [fill, hcT, hz]
      | succ i =>
        have hi' : i < l.length := by simpa using hi
        obtain ⟨⟨h4, h5⟩, h6⟩ := h3 i hi'
        refine ⟨⟨by simpa [fill] using h4, by simpa [fill] using h5⟩, fun hr => ?_⟩
        obtain ⟨h7, h8⟩ := h6 (by simpa [fill] using hr)
        refine ⟨by simp only [fill, List.sum_cons]; omega, ?_⟩
        intro j hj hij
        obtain ⟨j, rfl⟩ : ∃ k, j = k + 1 := ⟨j - 1, by omega⟩
        simpa [fill] using h8 j (by simpa using hj) (by omega)

/-! ### One pass -/

theorem Optimal.sound {E : Env N A K} (h : Optimal E) : Sound E :=
  ⟨fun g f hf => (h.solver g f hf).feasible, h.sets, fun l a => (h.accts l a).1⟩

theorem convert_all {E : Env N A K} {lim : Lim} {total : Ext K} {flows : Flows N A}
    {accounts : List A} {r : Dict A (Dict K K)}
    (h : convertFlows E lim total flows accounts = .ok r) {a : A} (ha : a ∈ accounts)
    (hr : Dict.get? r a = none) : flowsFrom flows (.acct a) = 0 := by
  have key : ∀ (l : List A) (r₀ r : Dict A (Dict K K)),
      l.foldlM (fun r a =>
        match Dict.get? flows (.acct a) with
        | none => .ok r
        | some d => do
          let t ← E.txOf a lim (amountFor E total d)
          .ok (Dict.set r a t)) r₀ = (.ok r : Except PyErr _) →
      (∀ a, Dict.get? r a = none → Dict.get? r₀ a = none) ∧
      (∀ a ∈ l, Dict.get? r a = none → Dict.get? flows (.acct a) = none) := by
    intro l
    induction l with
    | nil =>
      intro r₀ r h
      cases h
      exact ⟨fun _ h => h, by simp⟩
    | cons b l ih =>
      intro r₀ r h
      rw [List.foldlM_cons, bind_ok_iff] at h
      obtain ⟨r₁, h1, h2⟩ := h
      obtain ⟨h3, h4⟩ := ih r₁ r h2
      cases hb : Dict.get? flows (.acct b) with
      | none =>
        simp only [hb] at h1
        cases h1
        refine ⟨h3, fun a ha hra => ?_⟩
        rcases List.mem_cons.1 ha with rfl | ha
        · exact hb
        · exact h4 a ha hra
      | some d =>
        simp only [hb] at h1
        rw [bind_ok_iff] at h1
        obtain ⟨t, -, h1⟩ := h1
        cases h1
        refine ⟨fun a ha => ?_, fun a ha hra => ?_⟩
        · have := h3 a ha
          rw [Dict.get?_set] at this
          split_ifs at this
          exact this
        · rcases List.mem_cons.1 ha with rfl | ha
          · have := h3 a hra
            rw [Dict.get?_set, if_pos rfl] at this
            cases this
          · exact h4 a ha hra
  unfold flowsFrom
  rw [(key accounts [] r h).2 a ha hr]

/-- What one pass over an ordered list does. -/
theorem flat_pass {E : Env N A K} (hE : Optimal E) {lim : Lim} {cs : List N} {acc : N → A}
    (hF : Flat E lim cs acc) {fuel : ℕ} {total : K} {memo memo' : Flows N A}
    {r : Dict A (Dict K K)} (h : traverse E fuel lim (.fin total) memo = .ok (r, memo')) :
    ∃ x : N → ℤ, (∀ c ∈ cs, 0 ≤ x c) ∧
      cs.map x = fill (|pyInt (total / E.precision)| - flowsTo memo .source (.node E.tree.root))
        (cs.map fun c => capOf E lim memo (acc c)) ∧
      0 ≤ |pyInt (total / E.precision)| - flowsTo memo .source (.node E.tree.root) ∧
      (∀ c ∈ cs, (Dict.get? r (acc c) = none → x c = 0) ∧
        ∀ t, Dict.get? r (acc c) = some t → E.txOf (acc c) lim (money E (.fin total) (x c)) = .ok t) ∧
      Dict.WF r ∧
      (memo = [] → flowsTo memo' .source (.node E.tree.root) = (cs.map x).sum ∧
        ∀ c ∈ cs, flowsFrom memo' (.acct (acc c)) = x c) := by
  obtain ⟨g, f, -, -, hf, hm, hw, hb, -⟩ := traverse_spec hE.sound h
  unfold traverse at h
  rw [bind_ok_iff] at h
  obtain ⟨g', h1, h⟩ := h
  rw [bind_ok_iff] at h
  obtain ⟨f', h2, h⟩ := h
  rw [bind_ok_iff] at h
  obtain ⟨accounts, h3, h⟩ := h
  rw [bind_ok_iff] at h
  obtain ⟨txs, h4, h⟩ := h
  cases h
  clear hm hb hf f g
  have hopt := hE.solver _ _ h2
  have hB := flat_graph hF h1
  obtain ⟨hT, hfill, hsrc⟩ := flat_optimal hF hB hopt
  refine ⟨fun c => out g' f' (.acct (acc c)), fun c _ => out_nonneg hopt.feasible _, hfill, hT,
    ?_, hw, ?_⟩
  · intro c hc
    refine ⟨fun hn => ?_, fun t ht => ?_⟩
    · change out g' f' (.acct (acc c)) = 0
      rw [← flowsFrom_eq_out hopt.feasible]
      refine convert_all h4 ?_ hn
      rw [hE.accts, List.mem_dedup, mem_getAccounts h3]
      exact .ordered hF.root hc (.leaf (hF.leaf c hc))
    · change E.txOf (acc c) lim (money E (.fin total) (out g' f' (.acct (acc c)))) = .ok t
      rw [← flowsFrom_eq_out hopt.feasible]
      exact ((convert_spec h4).2 _ _ ht).2
  · intro hmemo
    subst hmemo
    obtain ⟨-, hmt, hmf⟩ := merge_spec f' [] innerWF_nil hopt.feasible.wf.1 hopt.feasible.wf.2
    refine ⟨?_, fun c hc => ?_⟩
    · rw [hmt, ← hsrc]; simp [flowsTo, flow]
    · rw [hmf, flowsFrom_eq_out hopt.feasible]; simp [flowsFrom]

/-- One pass over the tree fills the accounts `acc c`, for `c` in `cs`, in this order. -/
def Fills {ι : Type} (E : Env N A K) (lim : Lim) (cs : List ι) (acc : ι → A) : Prop :=
  ∀ {fuel : ℕ} {total : K} {memo memo' : Flows N A} {r : Dict A (Dict K K)},
    traverse E fuel lim (.fin total) memo = .ok (r, memo') →
    ∃ x : ι → ℤ, (∀ c ∈ cs, 0 ≤ x c) ∧
      cs.map x = fill (|pyInt (total / E.precision)| - flowsTo memo .source (.node E.tree.root))
        (cs.map fun c => capOf E lim memo (acc c)) ∧
      0 ≤ |pyInt (total / E.precision)| - flowsTo memo .source (.node E.tree.root) ∧
      (∀ c ∈ cs, (Dict.get? r (acc c) = none → x c = 0) ∧
        ∀ t, Dict.get? r (acc c) = some t → E.txOf (acc c) lim (money E (.fin total) (x c)) = .ok t) ∧
      Dict.WF r ∧
      (memo = [] → flowsTo memo' .source (.node E.tree.root) = (cs.map x).sum ∧
        ∀ c ∈ cs, flowsFrom memo' (.acct (acc c)) = x c)

theorem Flat.fills {E : Env N A K} (hE : Optimal E) {lim : Lim} {cs : List N} {acc : N → A}
    (hF : Flat E lim cs acc) : Fills E lim cs acc := fun h => flat_pass hE hF h

/-- Every account of the lists is below the root. -/
theorem Forest.Fits.below {E : Env N A K} {lim : Lim} {f : Forest N A} (h : f.Fits E lim) :
    ∀ a ∈ f.accs, ∃ n ∈ f.roots, LeafBelow E.tree n a := by
  induction f with
  | nil => intro a ha; simp [Forest.accs] at ha
  | leaf n b r ih =>
    obtain ⟨h1, -, -, h2⟩ := h
    intro a ha
    simp only [Forest.accs, List.mem_cons] at ha
    rcases ha with rfl | ha
    · exact ⟨n, by simp [Forest.roots], .leaf h1⟩
    · obtain ⟨m, hm, hb⟩ := ih h2 a ha
      exact ⟨m, by simp [Forest.roots, hm], hb⟩
  | node n c r ihc ihr =>
    obtain ⟨h1, -, h2, h3⟩ := h
    intro a ha
    simp only [Forest.accs, List.mem_append] at ha
    rcases ha with ha | ha
    · obtain ⟨m, hm, hb⟩ := ihc h2 a ha
      exact ⟨n, by simp [Forest.roots], .ordered h1 hm hb⟩
    · obtain ⟨m, hm, hb⟩ := ihr h3 a ha
      exact ⟨m, by simp [Forest.roots, hm], hb⟩

/-- What one pass over nested ordered lists does. -/
theorem nested_pass {E : Env N A K} (hE : Optimal E) {lim : Lim} {f : Forest N A}
    (hF : Nested E lim f) {fuel : ℕ} {total : K} {memo memo' : Flows N A}
    {r : Dict A (Dict K K)} (h : traverse E fuel lim (.fin total) memo = .ok (r, memo')) :
    ∃ x : A → ℤ, ∃ T, T = |pyInt (total / E.precision)| - flowsTo memo .source (.node E.tree.root) ∧
      0 ≤ T ∧
      (∀ a ∈ f.accs, 0 ≤ x a ∧ Within (capOf E lim memo a) (x a)) ∧
      (f.accs.map x).sum ≤ T ∧
      (∀ a ∈ f.accs, Room (capOf E lim memo a) (x a) → (f.accs.map x).sum = T) ∧
      (∀ a ∈ f.accs, ∀ b ∈ f.accs, f.pen a < f.pen b → Room (capOf E lim memo a) (x a) →
        x b = 0) ∧
      (∀ a ∈ f.accs, (Dict.get? r a = none → x a = 0) ∧
        ∀ t, Dict.get? r a = some t → E.txOf a lim (money E (.fin total) (x a)) = .ok t) ∧
      Dict.WF r ∧
      (memo = [] → flowsTo memo' .source (.node E.tree.root) = (f.accs.map x).sum ∧
        ∀ a ∈ f.accs, flowsFrom memo' (.acct a) = x a) := by
  obtain ⟨g, fl, -, -, hf, hm, hw, hb, -⟩ := traverse_spec hE.sound h
  unfold traverse at h
  rw [bind_ok_iff] at h
  obtain ⟨g', h1, h⟩ := h
  rw [bind_ok_iff] at h
  obtain ⟨f', h2, h⟩ := h
  rw [bind_ok_iff] at h
  obtain ⟨accounts, h3, h⟩ := h
  rw [bind_ok_iff] at h
  obtain ⟨txs, h4, h⟩ := h
  cases h
  clear hm hb hf fl g
  have hopt := hE.solver _ _ h2
  have hB := nested_graph hF h1
  rw [hB] at hopt
  obtain ⟨k1, k2, k3, k4, k5, k6⟩ := forest_optimal hF.apart hopt
  rw [← hB] at hopt k2 k3 k4 k5 k6
  refine ⟨fun a => out g' f' (.acct a), _, rfl, k1, k2, k3, k4, k5, ?_, hw, ?_⟩
  · intro a ha
    refine ⟨fun hn => ?_, fun t ht => ?_⟩
    · change out g' f' (.acct a) = 0
      rw [← flowsFrom_eq_out hopt.feasible]
      refine convert_all h4 ?_ hn
      rw [hE.accts, List.mem_dedup, mem_getAccounts h3]
      obtain ⟨n, hn, hl⟩ := hF.fits.below a ha
      exact .ordered hF.root hn hl
    · change E.txOf a lim (money E (.fin total) (out g' f' (.acct a))) = .ok t
      rw [← flowsFrom_eq_out hopt.feasible]
      exact ((convert_spec h4).2 _ _ ht).2
  · intro hmemo
    subst hmemo
    obtain ⟨-, hmt, hmf⟩ := merge_spec f' [] innerWF_nil hopt.feasible.wf.1 hopt.feasible.wf.2
    refine ⟨?_, fun a ha => ?_⟩
    · rw [hmt, ← k6]; simp [flowsTo, flow]
    · rw [hmf, flowsFrom_eq_out hopt.feasible]; simp [flowsFrom]

/-- The accounts of nested lists are filled in the order of their penalties. -/
theorem Nested.fills_by_penalty {E : Env N A K} (hE : Optimal E) {lim : Lim} {f : Forest N A}
    (hF : Nested E lim f) {l : List A} (hl : l.Perm f.accs)
    (hp : l.Pairwise fun a b => f.pen a < f.pen b) : Fills E lim l id := by
  intro fuel total memo memo' r h
  obtain ⟨x, T, rfl, k1, k2, k3, k4, k5, k6, k7, k8⟩ := nested_pass hE hF h
  have hsum : (l.map x).sum = (f.accs.map x).sum := (hl.map x).sum_eq
  refine ⟨x, fun a ha => (k2 a (hl.mem_iff.1 ha)).1, ?_, k1, fun a ha => k6 a (hl.mem_iff.1 ha), k7,
    fun hm => ⟨by rw [hsum]; exact (k8 hm).1, fun a ha => (k8 hm).2 a (hl.mem_iff.1 ha)⟩⟩
  apply eq_fill (fun a => capOf E lim memo (id a)) x
  · exact fun a ha => k2 a (hl.mem_iff.1 ha)
  · rw [hsum]; exact k3
  · intro a ha hr
    rw [hsum]; exact k4 a (hl.mem_iff.1 ha) hr
  · refine List.Pairwise.imp_of_mem ?_ hp
    intro a b ha hb hlt hr
    exact k5 a (hl.mem_iff.1 ha) b (hl.mem_iff.1 hb) hlt hr

theorem Nested.fills {E : Env N A K} (hE : Optimal E) {lim : Lim} {f : Forest N A}
    (hF : Nested E lim f) (hf : f.EdgesOnly true) : Fills E lim f.accs id :=
  hF.fills_by_penalty hE (List.Perm.refl _) (Forest.pen_increasing hF.apart hf)

/-! ### Numbers -/

theorem abs_pyInt (x : K) : |pyInt x| = ⌊|x|⌋ := by
  unfold pyInt
  split_ifs with h
  · rw [abs_of_nonneg (Int.floor_nonneg.2 h), abs_of_nonneg h]
  · push Not at h
    rw [abs_of_nonpos (Int.ceil_nonpos.2 h.le), abs_of_neg h, Int.floor_neg]

theorem pyInt_of_nonneg {x : K} (h : 0 ≤ x) : pyInt x = ⌊x⌋ := by
  unfold pyInt; rw [if_pos h]

/-- The capacity of an account with a limit that is at least what it already has. -/
theorem capOf_eq {E : Env N A K} {lim : Lim} {memo : Flows N A} {a : A} {l : Ext K}
    (hp : 0 < E.precision) (hl : E.limitOf a lim = .ok l)
    (h : .fin (E.precision * (flowsFrom memo (.acct a) : K)) ≤ l) :
    capOf E lim memo a = roomLeft (wholeUnits E.precision l) (flowsFrom memo (.acct a)) := by
  unfold capOf
  rw [hl]
  cases l with
  | fin x =>
    simp only
    rw [acctCap_fin]
    have hx : (flowsFrom memo (.acct a) : K) ≤ x / E.precision := by
      rw [le_div_iff₀ hp, mul_comm]; simpa using h
    rw [abs_of_nonneg (by linarith), pyInt_of_nonneg (by linarith), Int.floor_sub_intCast]
    rfl
  | posInf => simp [acctCap, scale, lessFlow, edgeCapacity, wholeUnits, roomLeft]
  | negInf => simp at h

theorem zipWith_map_same {α β γ δ : Type} (f : β → γ → δ) (g : α → β) (h : α → γ) (l : List α) :
    List.zipWith f (l.map g) (l.map h) = l.map fun a => f (g a) (h a) := by
  induction l with
  | nil => rfl
  | cons a l ih => simp [ih]

/-! ### C68 -/

theorem given_none {r : Dict A (Dict K K)} {a : A} (h : Dict.get? r a = none) : given r a = 0 := by
  unfold given; rw [h]; rfl

theorem given_some {r : Dict A (Dict K K)} {a : A} {t : Dict K K} (h : Dict.get? r a = some t) :
    given r a = Dict.total t := by
  unfold given; rw [h]; rfl

section FillIn

variable {E : Env N A K} {ι : Type} {cs : List ι} {acc : ι → A} {total : K} {fuel : ℕ}
  {r : Dict A (Dict K K)}

/-- Money put into an ordered list of accounts (none of which shares a limit, in a tree
without limits of its own) first fills the accounts up to their minimums, in order, and what is
left then fills them up to their maximums, in order; all in whole units of the precision. -/
theorem fills_inflows_in_order (hE : Optimal E) (hA : Answers E) (hX : Exact E)
    (hp : 0 < E.precision) (ht : E.precision < total)
    (hmin : Fills E .minIn cs acc) (hmax : Fills E .maxIn cs acc)
    (lo : ι → K) (hi : ι → Ext K)
    (hlo : ∀ c ∈ cs, E.limitOf (acc c) .minIn = .ok (.fin (lo c)) ∧ 0 ≤ lo c)
    (hhi : ∀ c ∈ cs, E.limitOf (acc c) .maxIn = .ok (hi c) ∧ .fin (lo c) ≤ hi c)
    (h : call E fuel total = .ok r) :
    cs.map (fun c => given r (acc c)) =
      (twoPass ⌊total / E.precision⌋ (cs.map fun c => ⌊lo c / E.precision⌋)
        (cs.map fun c => wholeUnits E.precision (hi c))).map fun x : ℤ => E.precision * (x : K) := by
  have ht0 : 0 ≤ total := (hp.trans ht).le
  have hT : |pyInt (total / E.precision)| = ⌊total / E.precision⌋ := by
    rw [abs_pyInt, abs_of_nonneg (div_nonneg ht0 hp.le)]
  unfold call at h
  rw [if_pos ht, bind_ok_iff] at h
  obtain ⟨⟨r₁, m₁⟩, h1, h⟩ := h
  rw [bind_ok_iff] at h
  obtain ⟨⟨r₂, m₂⟩, h2, h⟩ := h
  cases h
  obtain ⟨x, x0, xfill, xT, xr, w₁, hm⟩ := hmin h1
  obtain ⟨hm1, hm2⟩ := hm rfl
  obtain ⟨y, y0, yfill, yT, yr, w₂, -⟩ := hmax h2
  have hz1 : flowsTo ([] : Flows N A) .source (.node E.tree.root) = 0 := rfl
  have hz2 : ∀ a, flowsFrom ([] : Flows N A) (.acct a) = 0 := fun _ => rfl
  simp only [hT, hz1, sub_zero, hm1] at xfill yfill xT yT
  -- the capacities
  have cap1 : cs.map (fun c => capOf E .minIn [] (acc c)) =
      (cs.map fun c => ⌊lo c / E.precision⌋).map some := by
    rw [List.map_map]
    apply List.map_congr_left
    intro c hc
    rw [capOf_eq hp (hlo c hc).1 (by simpa [hz2] using (hlo c hc).2)]
    simp [wholeUnits, roomLeft, hz2]
  rw [cap1] at xfill
  have hw1 : ∀ c ∈ (cs.map fun c => ⌊lo c / E.precision⌋).map some, Within c 0 := by
    intro k hk
    rw [List.map_map] at hk
    obtain ⟨c, hc, rfl⟩ := List.mem_map.1 hk
    exact Int.floor_nonneg.2 (div_nonneg (hlo c hc).2 hp.le)
  -- what an account gets in the first pass is within its minimum
  have xlo : ∀ c ∈ cs, E.precision * (x c : K) ≤ lo c := by
    intro c hc
    obtain ⟨i, hi', rfl⟩ := List.getElem_of_mem hc
    have hf := ((fill_facts _ _ xT hw1).2.2 i (by simpa using hi')).1.2
    have hxi : x cs[i] = (fill ⌊total / E.precision⌋
        ((cs.map fun c => ⌊lo c / E.precision⌋).map some))[i]'(by simpa using hi') := by
      simp only [← xfill, List.getElem_map]
    rw [← hxi] at hf
    simp only [List.getElem_map, Within] at hf
    have : (x cs[i] : K) ≤ lo cs[i] / E.precision :=
      le_trans (by exact_mod_cast hf) (Int.floor_le _)
    rwa [le_div_iff₀ hp, mul_comm] at this
  have cap2 : cs.map (fun c => capOf E .maxIn m₁ (acc c)) =
      List.zipWith roomLeft (cs.map fun c => wholeUnits E.precision (hi c)) (cs.map x) := by
    rw [zipWith_map_same]
    apply List.map_congr_left
    intro c hc
    rw [capOf_eq hp (hhi c hc).1, hm2 c hc]
    rw [hm2 c hc]
    exact le_trans (by simpa using xlo c hc) (hhi c hc).2
  rw [cap2] at yfill
  have hw2 : ∀ k ∈ List.zipWith roomLeft (cs.map fun c => wholeUnits E.precision (hi c))
      (cs.map x), Within k 0 := by
    intro k hk
    rw [zipWith_map_same] at hk
    obtain ⟨c, hc, rfl⟩ := List.mem_map.1 hk
    have := le_trans (a := Ext.fin (E.precision * (x c : K))) (b := Ext.fin (lo c))
      (by simpa using xlo c hc) (hhi c hc).2
    cases hx : hi c with
    | fin z =>
      rw [hx] at this
      have h5 : E.precision * (x c : K) ≤ z := by simpa using this
      have h6 : (x c : K) ≤ z / E.precision := by rwa [le_div_iff₀ hp, mul_comm]
      have h7 := Int.le_floor.2 h6
      simp only [wholeUnits, roomLeft, Within]
      omega
    | posInf => trivial
    | negInf => trivial
  -- and in both within its maximum
  have yhi : ∀ c ∈ cs, Ext.fin (E.precision * (y c : K)) ≤ hi c := by
    intro c hc
    obtain ⟨i, hi', rfl⟩ := List.getElem_of_mem hc
    have hf := ((fill_facts _ _ yT hw2).2.2 i (by simpa using hi')).1.2
    have hyi : y cs[i] = (fill (⌊total / E.precision⌋ - (cs.map x).sum)
        (List.zipWith roomLeft (cs.map fun c => wholeUnits E.precision (hi c))
          (cs.map x)))[i]'(by simpa using hi') := by
      simp only [← yfill, List.getElem_map]
    rw [← hyi] at hf
    simp only [List.getElem_zipWith, List.getElem_map] at hf
    have hle := le_trans (a := Ext.fin (E.precision * (x cs[i] : K))) (b := Ext.fin (lo cs[i]))
      (by simpa using xlo _ hc) (hhi _ hc).2
    cases hx : hi cs[i] with
    | fin z =>
      rw [hx] at hf
      simp only [wholeUnits, roomLeft, Within] at hf
      have h5 : y cs[i] ≤ ⌊z / E.precision⌋ := by have := x0 _ hc; omega
      have h6 : (y cs[i] : K) ≤ z / E.precision := le_trans (by exact_mod_cast h5) (Int.floor_le _)
      rw [le_div_iff₀ hp, mul_comm] at h6
      simpa using h6
    | posInf => simp
    | negInf => rw [hx] at hle; simp at hle
  -- what each account is given
  have tx₂ : ∀ a t, Dict.get? r₂ a = some t → Dict.WF t := by
    intro a t hat
    obtain ⟨g₂, f₂, -, -, F₂, -, -, -, hx₂⟩ := traverse_spec hE.sound h2
    have := (hx₂ a t hat).2
    rw [money_pos E ht0] at this
    exact (hA.inflow a _ _ t (.inr rfl)
      (mul_nonneg hp.le (by exact_mod_cast out_nonneg F₂ _)) this).1
  have g₁ : ∀ c ∈ cs, given r₁ (acc c) = E.precision * (x c : K) := by
    intro c hc
    obtain ⟨hn, hs⟩ := xr c hc
    cases hx : Dict.get? r₁ (acc c) with
    | none => rw [given_none hx, hn hx]; simp
    | some t =>
      have h5 := hs t hx
      rw [money_pos E ht0] at h5
      rw [given_some hx]
      exact (hX.inflow _ _ _ _ t (.inl rfl) (hlo c hc).1
        (mul_nonneg hp.le (by exact_mod_cast x0 c hc)) (by simpa using xlo c hc) h5).2
  have g₂ : ∀ c ∈ cs, given r₂ (acc c) = E.precision * (y c : K) := by
    intro c hc
    obtain ⟨hn, hs⟩ := yr c hc
    cases hx : Dict.get? r₂ (acc c) with
    | none => rw [given_none hx, hn hx]; simp
    | some t =>
      have h5 := hs t hx
      rw [money_pos E ht0] at h5
      rw [given_some hx]
      exact (hX.inflow _ _ _ _ t (.inr rfl) (hhi c hc).1
        (mul_nonneg hp.le (by exact_mod_cast y0 c hc)) (yhi c hc) h5).2
  unfold twoPass
  simp only
  rw [← xfill, ← yfill, zipWith_map_same, List.map_map]
  apply List.map_congr_left
  intro c hc
  rw [given_combine w₁ tx₂, g₁ c hc, g₂ c hc]
  simp only [Function.comp_apply, Int.cast_add]
  ring

/-- Filling with minimums that are 0 does nothing. -/
theorem twoPass_zero (T : ℤ) (hT : 0 ≤ T) (hi : List (Option ℤ)) :
    twoPass T (hi.map fun _ => 0) hi = fill T hi := by
  have h1 : fill T ((hi.map fun _ => (0 : ℤ)).map some) = hi.map fun _ => 0 := by
    induction hi with
    | nil => rfl
    | cons c l ih =>
      rw [List.map_cons, List.map_cons, fill, min_eq_left hT, sub_zero, ih]
  have h2 : List.zipWith roomLeft hi (hi.map fun _ => (0 : ℤ)) = hi := by
    clear h1
    induction hi with
    | nil => rfl
    | cons c l ih =>
      rw [List.map_cons, List.zipWith_cons_cons, ih]
      cases c <;> simp [roomLeft]
  have h3 : (hi.map fun _ => (0 : ℤ)).sum = 0 := by simp
  have h4 : ∀ l : List ℤ, l.length = hi.length →
      List.zipWith (· + ·) (hi.map fun _ => (0 : ℤ)) l = l := by
    clear h1 h2 h3
    induction hi with
    | nil => intro l hl; rw [List.length_eq_zero_iff.1 hl]; rfl
    | cons c hi ih =>
      intro l hl
      cases l with
      | nil => simp at hl
      | cons a l => rw [List.map_cons, List.zipWith_cons_cons, ih l (by simpa using hl), zero_add]
  unfold twoPass
  simp only [h1, h2, h3, sub_zero]
  exact h4 _ (fill_length _ _)

/-- Without minimums: the accounts are filled in order. -/
theorem fills_inflows_greedy (hE : Optimal E) (hA : Answers E) (hX : Exact E)
    (hp : 0 < E.precision) (ht : E.precision < total)
    (hmin : Fills E .minIn cs acc) (hmax : Fills E .maxIn cs acc) (hi : ι → Ext K)
    (hlo : ∀ c ∈ cs, E.limitOf (acc c) .minIn = .ok (.fin 0))
    (hhi : ∀ c ∈ cs, E.limitOf (acc c) .maxIn = .ok (hi c) ∧ .fin 0 ≤ hi c)
    (h : call E fuel total = .ok r) :
    cs.map (fun c => given r (acc c)) =
      (fill ⌊total / E.precision⌋ (cs.map fun c => wholeUnits E.precision (hi c))).map
        fun x : ℤ => E.precision * (x : K) := by
  rw [fills_inflows_in_order hE hA hX hp ht hmin hmax (fun _ => 0) hi
    (fun c hc => ⟨hlo c hc, le_rfl⟩) hhi h]
  congr 1
  have : cs.map (fun c => ⌊(0 : K) / E.precision⌋) =
      (cs.map fun c => wholeUnits E.precision (hi c)).map fun _ => (0 : ℤ) := by
    rw [List.map_map]
    apply List.map_congr_left
    intro c _
    simp
  rw [this]
  exact twoPass_zero _ (Int.floor_nonneg.2 (div_nonneg (hp.trans ht).le hp.le)) _

/-- The priorities, in so many words: as long as an account could take another unit, no
later account gets anything (without minimums); and if money is left over, every account is full. -/
theorem fills_inflows_priority (hE : Optimal E) (hA : Answers E) (hX : Exact E)
    (hp : 0 < E.precision) (ht : E.precision < total)
    (hmin : Fills E .minIn cs acc) (hmax : Fills E .maxIn cs acc) (hi : ι → Ext K)
    (hlo : ∀ c ∈ cs, E.limitOf (acc c) .minIn = .ok (.fin 0))
    (hhi : ∀ c ∈ cs, E.limitOf (acc c) .maxIn = .ok (hi c) ∧ .fin 0 ≤ hi c)
    (h : call E fuel total = .ok r) (i : ℕ) (hi' : i < cs.length)
    (room : .fin (given r (acc cs[i]) + E.precision) ≤ hi cs[i]) :
    (∀ (j : ℕ) (hj : j < cs.length), i < j → given r (acc cs[j]) = 0) ∧
    total - E.precision < (cs.map fun c => given r (acc c)).sum := by
  have key := fills_inflows_greedy hE hA hX hp ht hmin hmax hi hlo hhi h
  set T := ⌊total / E.precision⌋ with hT
  set caps := cs.map fun c => wholeUnits E.precision (hi c) with hcaps
  have hT0 : 0 ≤ T := Int.floor_nonneg.2 (div_nonneg (hp.trans ht).le hp.le)
  have hw : ∀ c ∈ caps, Within c 0 := by
    intro k hk
    obtain ⟨c, hc, rfl⟩ := List.mem_map.1 hk
    have := (hhi c hc).2
    cases hx : hi c with
    | fin z =>
      rw [hx] at this
      exact Int.floor_nonneg.2 (div_nonneg (by simpa using this) hp.le)
    | posInf => trivial
    | negInf => trivial
  obtain ⟨-, -, hf⟩ := fill_facts caps T hT0 hw
  have hlen : caps.length = cs.length := by simp [hcaps]
  have hgive : ∀ (j : ℕ) (hj : j < cs.length), given r (acc cs[j]) =
      E.precision * (((fill T caps)[j]'(by simpa [hlen] using hj) : ℤ) : K) := by
    intro j hj
    have := congrArg (fun l => l[j]?) key
    simp only [List.getElem?_map, List.getElem?_eq_getElem hj, Option.map_some] at this
    rw [List.getElem?_eq_getElem (by simpa [hlen] using hj)] at this
    simpa using this
  obtain ⟨-, h2⟩ := hf i (by rw [hlen]; exact hi')
  have hroom : Room caps[i] ((fill T caps)[i]'(by simpa [hlen] using hi')) := by
    have e : caps[i] = wholeUnits E.precision (hi cs[i]) := by simp [hcaps]
    rw [e]
    rw [hgive i hi'] at room
    cases hx : hi cs[i] with
    | fin z =>
      rw [hx] at room
      simp only [wholeUnits, Room]
      have h3 : E.precision * (((fill T caps)[i]'(by simpa [hlen] using hi') : ℤ) : K) +
        E.precision ≤ z := by simpa using room
      have h4 : ((((fill T caps)[i]'(by simpa [hlen] using hi') + 1 : ℤ)) : K) ≤ z / E.precision := by
        rw [le_div_iff₀ hp]; push_cast; linarith
      have := Int.le_floor.2 h4
      omega
    | posInf => trivial
    | negInf => trivial
  obtain ⟨hs, hz⟩ := h2 hroom
  refine ⟨fun j hj hij => ?_, ?_⟩
  · rw [hgive j hj, hz j (by rw [hlen]; exact hj) hij]; simp
  · rw [key, List.sum_map_mul_left]
    have : (((fill T caps).map fun x : ℤ => (x : K)).sum) = (T : K) := by
      have e := map_list_sum (Int.castAddHom K) (fill T caps)
      rw [hs] at e
      exact e.symm
    rw [this]
    have h5 := Int.lt_floor_add_one (total / E.precision)
    rw [← hT, div_lt_iff₀ hp] at h5
    linarith

end FillIn

section FillOut

variable {E : Env N A K} {ι : Type} {cs : List ι} {acc : ι → A} {total : K} {fuel : ℕ}
  {r : Dict A (Dict K K)}

/-- Money taken out of an ordered list of accounts empties them in order, each down to
its maximum outflow; minimum outflows do not matter. -/
theorem fills_outflows_in_order (hE : Optimal E) (hA : Answers E) (hX : Exact E)
    (hp : 0 < E.precision) (ht : total < -E.precision)
    (hmax : Fills E .maxOut cs acc) (hmin : E.tree.limits E.tree.root .minOut = none)
    (hroot : ∀ n, E.tree.root ∉ childNodes E n) (hi : ι → K)
    (hhi : ∀ c ∈ cs, E.limitOf (acc c) .maxOut = .ok (.fin (-hi c)) ∧ 0 ≤ hi c)
    (hlo : ∀ c ∈ cs, ∃ lo, E.limitOf (acc c) .minOut = .ok (.fin lo) ∧ lo ≤ 0)
    (h : call E fuel total = .ok r) :
    cs.map (fun c => given r (acc c)) =
      (fill ⌊-total / E.precision⌋ (cs.map fun c => some ⌊hi c / E.precision⌋)).map
        fun x : ℤ => -(E.precision * (x : K)) := by
  have hT : |pyInt (total / E.precision)| = ⌊-total / E.precision⌋ := by
    rw [abs_pyInt, abs_div, abs_of_pos hp, abs_of_neg (by linarith)]
  have hn : ¬ total > E.precision := by linarith
  unfold call at h
  rw [if_neg hn, if_pos ht, bind_ok_iff] at h
  obtain ⟨⟨r₁, m₁⟩, h1, h⟩ := h
  rw [bind_ok_iff] at h
  obtain ⟨⟨r₂, m₂⟩, h2, h⟩ := h
  cases h
  have ht0 : (Ext.fin total : Ext K) < .fin 0 := by simp; linarith
  have ht1 : (Ext.negInf : Ext K) < .fin 0 := by rw [← not_le]; simp
  -- the first pass does nothing
  obtain ⟨g₁, f₁, s₁, -, F₁, rfl, w₁, b₁, x₁⟩ := traverse_spec hE.sound h1
  obtain ⟨-, hmt, hmf⟩ := merge_spec f₁ [] innerWF_nil F₁.wf.1 F₁.wf.2
  have hdead := dead_buildGraph hE.sound.solver hE.sets hroot hmin b₁
  have hz : ∀ a, out g₁ f₁ (.acct a) = 0 := dead_out hdead F₁
  have hsrc : flow f₁ .source (.node E.tree.root) = 0 := by
    have hl : ∀ v, flow f₁ (.limit E.tree.root) v = 0 := fun v => dead_flow hdead F₁ v
    have e1 : out g₁ f₁ (.limit E.tree.root) = 0 := by
      unfold out; exact Finset.sum_eq_zero fun v _ => hl v
    have e2 : out g₁ f₁ (.node E.tree.root) = flow f₁ (.node E.tree.root) (.limit E.tree.root) :=
      out_node s₁ F₁ _
    have e3 : flow f₁ (.node E.tree.root) (.limit E.tree.root) ≤ out g₁ f₁ (.limit E.tree.root) := by
      unfold out
      rw [← F₁.conserve _ (by simp) (by simp)]
      by_cases hm : (.node E.tree.root : G N A) ∈ verts g₁
      · exact Finset.single_le_sum (f := fun u => flow f₁ u (.limit E.tree.root))
          (fun u _ => F₁.nonneg _ _) hm
      · rw [F₁.edges]
        · exact Finset.sum_nonneg fun u _ => F₁.nonneg _ _
        · cases hx : Dict.get? g₁ (.node E.tree.root, .limit E.tree.root) with
          | none => rfl
          | some e => exact absurd (mem_verts_left hx).1 hm
    have e4 : flow f₁ .source (.node E.tree.root) ≤ out g₁ f₁ (.node E.tree.root) := by
      unfold out
      rw [← F₁.conserve _ (by simp) (by simp)]
      by_cases hm : (.source : G N A) ∈ verts g₁
      · exact Finset.single_le_sum (f := fun u => flow f₁ u (.node E.tree.root))
          (fun u _ => F₁.nonneg _ _) hm
      · rw [F₁.edges]
        · exact Finset.sum_nonneg fun u _ => F₁.nonneg _ _
        · cases hx : Dict.get? g₁ (.source, .node E.tree.root) with
          | none => rfl
          | some e => exact absurd (mem_verts_left hx).1 hm
    have := F₁.nonneg .source (.node E.tree.root)
    omega
  have hm1 : flowsTo (mergeFlows [] f₁) .source (.node E.tree.root) = 0 := by
    rw [hmt, show flowsTo f₁ .source (.node E.tree.root) = 0 from hsrc]; simp [flowsTo]
  have hm2 : ∀ a, flowsFrom (mergeFlows [] f₁) (.acct a) = 0 := by
    intro a
    rw [hmf, flowsFrom_eq_out F₁, hz]; simp [flowsFrom]
  have g₁0 : ∀ c ∈ cs, given r₁ (acc c) = 0 := by
    intro c hc
    cases hx : Dict.get? r₁ (acc c) with
    | none => exact given_none hx
    | some t =>
      have h5 := (x₁ _ t hx).2
      rw [money_neg E ht1, hz] at h5
      obtain ⟨lo, hl1, hl2⟩ := hlo c hc
      rw [given_some hx]
      refine (hX.outflow _ _ _ 0 t (.inl rfl) hl1 le_rfl (by simpa using hl2) ?_).2
      simpa using h5
  obtain ⟨y, y0, yfill, yT, yr, w₂, -⟩ := hmax h2
  rw [hT, hm1, sub_zero] at yfill yT
  have cap2 : cs.map (fun c => capOf E .maxOut (mergeFlows [] f₁) (acc c)) =
      cs.map fun c => some ⌊hi c / E.precision⌋ := by
    apply List.map_congr_left
    intro c hc
    unfold capOf
    rw [(hhi c hc).1]
    simp only
    rw [acctCap_fin, hm2]
    simp only [Int.cast_zero, sub_zero, neg_div, abs_neg]
    rw [abs_of_nonneg (div_nonneg (hhi c hc).2 hp.le),
      pyInt_of_nonneg (div_nonneg (hhi c hc).2 hp.le)]
  rw [cap2] at yfill
  have hw : ∀ k ∈ cs.map fun c => some ⌊hi c / E.precision⌋, Within k 0 := by
    intro k hk
    obtain ⟨c, hc, rfl⟩ := List.mem_map.1 hk
    exact Int.floor_nonneg.2 (div_nonneg (hhi c hc).2 hp.le)
  have yhi : ∀ c ∈ cs, E.precision * (y c : K) ≤ hi c := by
    intro c hc
    obtain ⟨i, hi', rfl⟩ := List.getElem_of_mem hc
    have hf := ((fill_facts _ _ yT hw).2.2 i (by simpa using hi')).1.2
    have hyi : y cs[i] = (fill ⌊-total / E.precision⌋
        (cs.map fun c => some ⌊hi c / E.precision⌋))[i]'(by simpa using hi') := by
      simp only [← yfill, List.getElem_map]
    rw [← hyi] at hf
    simp only [List.getElem_map, Within] at hf
    have : (y cs[i] : K) ≤ hi cs[i] / E.precision :=
      le_trans (by exact_mod_cast hf) (Int.floor_le _)
    rwa [le_div_iff₀ hp, mul_comm] at this
  have nn : ∀ x : ℤ, 0 ≤ x → -(E.precision * (x : K)) ≤ 0 := fun x hx =>
    neg_nonpos.2 (mul_nonneg hp.le (by exact_mod_cast hx))
  have tx₂ : ∀ a t, Dict.get? r₂ a = some t → Dict.WF t := by
    intro a t hat
    obtain ⟨g₂, f₂, -, -, F₂, -, -, -, hx₂⟩ := traverse_spec hE.sound h2
    have := (hx₂ a t hat).2
    rw [money_neg E ht0] at this
    exact (hA.outflow a _ _ t (.inr rfl) (nn _ (out_nonneg F₂ _)) this).1
  have g₂ : ∀ c ∈ cs, given r₂ (acc c) = -(E.precision * (y c : K)) := by
    intro c hc
    obtain ⟨hn, hs⟩ := yr c hc
    cases hx : Dict.get? r₂ (acc c) with
    | none => rw [given_none hx, hn hx]; simp
    | some t =>
      have h5 := hs t hx
      rw [money_neg E ht0] at h5
      rw [given_some hx]
      exact (hX.outflow _ _ _ _ t (.inr rfl) (hhi c hc).1 (nn _ (y0 c hc))
        (by simpa using yhi c hc) h5).2
  rw [← yfill, List.map_map]
  apply List.map_congr_left
  intro c hc
  rw [given_combine w₁ tx₂, g₁0 c hc, g₂ c hc, zero_add]
  rfl

end FillOut

section Inflows

variable {E : Env N A K} {cs : List N} {acc : N → A} {total : K} {fuel : ℕ}
  {r : Dict A (Dict K K)}

/-- **C68.** Money put into an ordered list of accounts (none of which shares a limit, in a tree
without limits of its own) first fills the accounts up to their minimums, in order, and what is
left then fills them up to their maximums, in order; all in whole units of the precision. -/
theorem C68_inflows_in_order (hE : Optimal E) (hA : Answers E) (hX : Exact E)
    (hp : 0 < E.precision) (ht : E.precision < total)
    (hmin : Flat E .minIn cs acc) (hmax : Flat E .maxIn cs acc)
    (lo : N → K) (hi : N → Ext K)
    (hlo : ∀ c ∈ cs, E.limitOf (acc c) .minIn = .ok (.fin (lo c)) ∧ 0 ≤ lo c)
    (hhi : ∀ c ∈ cs, E.limitOf (acc c) .maxIn = .ok (hi c) ∧ .fin (lo c) ≤ hi c)
    (h : call E fuel total = .ok r) :
    cs.map (fun c => given r (acc c)) =
      (twoPass ⌊total / E.precision⌋ (cs.map fun c => ⌊lo c / E.precision⌋)
        (cs.map fun c => wholeUnits E.precision (hi c))).map fun x : ℤ => E.precision * (x : K) :=
  fills_inflows_in_order hE hA hX hp ht (hmin.fills hE) (hmax.fills hE) lo hi hlo hhi h

/-- **C68.** Without minimums: the accounts are filled in order. -/
theorem C68_inflows_greedy (hE : Optimal E) (hA : Answers E) (hX : Exact E)
    (hp : 0 < E.precision) (ht : E.precision < total)
    (hmin : Flat E .minIn cs acc) (hmax : Flat E .maxIn cs acc) (hi : N → Ext K)
    (hlo : ∀ c ∈ cs, E.limitOf (acc c) .minIn = .ok (.fin 0))
    (hhi : ∀ c ∈ cs, E.limitOf (acc c) .maxIn = .ok (hi c) ∧ .fin 0 ≤ hi c)
    (h : call E fuel total = .ok r) :
    cs.map (fun c => given r (acc c)) =
      (fill ⌊total / E.precision⌋ (cs.map fun c => wholeUnits E.precision (hi c))).map
        fun x : ℤ => E.precision * (x : K) :=
  fills_inflows_greedy hE hA hX hp ht (hmin.fills hE) (hmax.fills hE) hi hlo hhi h

/-- **C68.** The priorities, in so many words: as long as an account could take another unit, no
later account gets anything (without minimums); and if money is left over, every account is full. -/
theorem C68_inflows_priority (hE : Optimal E) (hA : Answers E) (hX : Exact E)
    (hp : 0 < E.precision) (ht : E.precision < total)
    (hmin : Flat E .minIn cs acc) (hmax : Flat E .maxIn cs acc) (hi : N → Ext K)
    (hlo : ∀ c ∈ cs, E.limitOf (acc c) .minIn = .ok (.fin 0))
    (hhi : ∀ c ∈ cs, E.limitOf (acc c) .maxIn = .ok (hi c) ∧ .fin 0 ≤ hi c)
    (h : call E fuel total = .ok r) (i : ℕ) (hi' : i < cs.length)
    (room : .fin (given r (acc cs[i]) + E.precision) ≤ hi cs[i]) :
    (∀ (j : ℕ) (hj : j < cs.length), i < j → given r (acc cs[j]) = 0) ∧
    total - E.precision < (cs.map fun c => given r (acc c)).sum :=
  fills_inflows_priority hE hA hX hp ht (hmin.fills hE) (hmax.fills hE) hi hlo hhi h i hi' room

end Inflows

section Outflows

variable {E : Env N A K} {cs : List N} {acc : N → A} {total : K} {fuel : ℕ}
  {r : Dict A (Dict K K)}

/-- **C68.** Money taken out of an ordered list of accounts empties them in order, each down to
its maximum outflow; minimum outflows do not matter. -/
theorem C68_outflows_in_order (hE : Optimal E) (hA : Answers E) (hX : Exact E)
    (hp : 0 < E.precision) (ht : total < -E.precision)
    (hmax : Flat E .maxOut cs acc) (hmin : E.tree.limits E.tree.root .minOut = none)
    (hroot : ∀ n, E.tree.root ∉ childNodes E n) (hi : N → K)
    (hhi : ∀ c ∈ cs, E.limitOf (acc c) .maxOut = .ok (.fin (-hi c)) ∧ 0 ≤ hi c)
    (hlo : ∀ c ∈ cs, ∃ lo, E.limitOf (acc c) .minOut = .ok (.fin lo) ∧ lo ≤ 0)
    (h : call E fuel total = .ok r) :
    cs.map (fun c => given r (acc c)) =
      (fill ⌊-total / E.precision⌋ (cs.map fun c => some ⌊hi c / E.precision⌋)).map
        fun x : ℤ => -(E.precision * (x : K)) :=
  fills_outflows_in_order hE hA hX hp ht (hmax.fills hE) hmin hroot hi hhi hlo h

end Outflows

/-! ### Real accounts are exact -/

section Accounts

open Forecaster.Account

theorem fold_fin (l : List K) (x : K) :
    (l.map Ext.fin).foldl Ext.add (.fin x) = .fin (x + l.sum) := by
  induction l generalizing x with
  | nil => simp
  | cons a l ih => rw [List.map_cons, List.foldl_cons, Ext.add, ih, List.sum_cons, add_assoc]

theorem fold_inf {s : Ext K} (hs : s = .posInf ∨ s = .negInf) (l : List (Ext K))
    (hl : ∀ y ∈ l, y = s) (x : Ext K) (hx : x = s ∨ ∃ k, x = .fin k) (hne : l ≠ [] ∨ x = s) :
    l.foldl Ext.add x = s := by
  induction l generalizing x with
  | nil =>
    rcases hne with h | h
    · exact absurd rfl h
    · exact h
  | cons a l ih =>
    rw [List.foldl_cons]
    have ha := hl a (by simp)
    have : Ext.add x a = s := by
      rcases hs with rfl | rfl <;> rcases hx with rfl | ⟨k, rfl⟩ <;> rw [ha] <;> rfl
    exact ih (fun y hy => hl y (by simp [hy])) _ (.inl this) (.inr this)

/-- The sum of an amount spread over a timing is the amount. -/
theorem sum_spread {nt : Dict K K} (hw : Weights nt) (V : Ext K) :
    (Dict.vals (Dict.mapVals (fun w => V.mulFin w) nt)).foldl Ext.add (.fin 0) = V := by
  have hne : nt ≠ [] := by
    rintro rfl
    have := hw.total
    simp at this
  have hv : Dict.vals (Dict.mapVals (fun w => V.mulFin w) nt) = nt.map fun e => V.mulFin e.2 := by
    simp [Dict.vals, Dict.mapVals]
  rw [hv]
  have hinf : ∀ s : Ext K, s = .posInf ∨ s = .negInf → V = s →
      (nt.map fun e => V.mulFin e.2).foldl Ext.add (.fin 0) = V := by
    intro s hs hV
    rw [hV]
    apply fold_inf hs
    · intro y hy
      obtain ⟨e, he, rfl⟩ := List.mem_map.1 hy
      have := hw.pos e he
      rcases hs with rfl | rfl <;> simp [Ext.mulFin, not_lt.2 this.le]
    · exact .inr ⟨0, rfl⟩
    · left; simpa using hne
  cases hV : V with
  | posInf => rw [← hV]; exact hinf _ (.inl rfl) hV
  | negInf => rw [← hV]; exact hinf _ (.inr rfl) hV
  | fin x =>
    have : nt.map (fun e => (Ext.fin x).mulFin e.2) = (nt.map fun e => x * e.2).map Ext.fin := by
      rw [List.map_map]; rfl
    rw [this, fold_fin, zero_add, List.sum_map_mul_left]
    have ht : (nt.map fun e => e.2).sum = 1 := hw.total
    rw [ht, mul_one]

/-- Accounts that grow sensibly are exact. -/
theorem accounts_exact {E : Env N A K} {leaf : A → Leaf K} {timing : Option (Arg K)}
    (h : OfAccounts E leaf timing)
    (hr : ∀ a, ∃ tm, Fit (leaf a).acct timing none tm) : Exact E := by
  constructor
  · intro a lim l x d hl hlim hx hxl hd
    obtain ⟨tm, ht⟩ := hr a
    rw [h.limit] at hlim
    rw [h.tx] at hd
    unfold accountTx at hd
    unfold accountLimit at hlim
    obtain ⟨c, t, hct⟩ : ∃ c t, ∀ o, flowsOf (leaf a) lim
        { timing := timing, transactionLimit := o } =
        transactionsToBalance (leaf a).acct t timing
          (some (inCap c (inflows (leaf a).acct none) o)) (some (.fin 0)) none := by
      rcases hl with rfl | rfl
      · unfold flowsOf debtMinInflows minInflows
        by_cases hb : (leaf a).debt = true
        · refine ⟨(leaf a).limits.minIn, .fin 0, fun o => ?_⟩; simp only [if_pos hb]; rfl
        · refine ⟨(leaf a).limits.minIn, .posInf, fun o => ?_⟩; simp only [if_neg hb]; rfl
      · unfold flowsOf debtMaxInflows maxInflows
        by_cases hb : (leaf a).debt = true
        · refine ⟨(leaf a).limits.maxIn, .fin 0, fun o => ?_⟩; simp only [if_pos hb]; rfl
        · refine ⟨(leaf a).limits.maxIn, .posInf, fun o => ?_⟩; simp only [if_neg hb]; rfl
    rw [hct none] at hlim
    rw [hct (some (.fin x))] at hd
    obtain ⟨nt, ref, hnt, hw, hpos, href, hc⟩ := core ht
    rw [ttb_eq href ht.resolves hnt ht.growth hw] at hlim hd
    rw [ok_bind, sum_spread hw] at hlim
    simp only [Except.ok.injEq] at hlim
    set T := (t.subFin ref).mulFin (weightedAccum (leaf a).acct.A nt)⁻¹ with hT
    have hV : max (min T (inCap c (inflows (leaf a).acct none) (some (.fin x)))) (.fin 0) =
        .fin x := by
      rw [← hlim] at hxl
      unfold inCap at hxl ⊢
      simp only at hxl ⊢
      generalize c.subFin (inflows (leaf a).acct none) = C at hxl ⊢
      have h0 : (Ext.fin 0 : Ext K) ≤ .fin x := by simpa using hx
      rcases eq_or_lt_of_le h0 with h0 | h0
      · rw [← h0]
        apply le_antisymm
        · exact max_le ((min_le_right _ _).trans (max_le (min_le_right _ _) le_rfl)) le_rfl
        · exact le_max_right _ _
      · have h1 : (Ext.fin x : Ext K) ≤ T ∧ .fin x ≤ C := by
          rcases le_max_iff.1 hxl with h2 | h2
          · obtain ⟨h3, h4⟩ := le_min_iff.1 h2
            refine ⟨h3, ?_⟩
            rcases le_max_iff.1 h4 with h5 | h5
            · exact h5
            · exact absurd h0 (not_lt.2 h5)
          · exact absurd h0 (not_lt.2 h2)
        rw [min_eq_right h1.2, max_eq_left h0.le, min_eq_right h1.1, max_eq_left h0.le]
    simp only [← hT, hV, mapVals_fin, ok_bind, finiteVals_fin] at hd
    cases hd
    obtain ⟨h2, h3, -⟩ := hc x
    exact ⟨h2.wf, h3⟩
  · intro a lim l x d hl hlim hx hxl hd
    obtain ⟨tm, ht⟩ := hr a
    rw [h.limit] at hlim
    rw [h.tx] at hd
    unfold accountTx at hd
    unfold accountLimit at hlim
    obtain ⟨c, t, hct⟩ : ∃ c t, ∀ o, flowsOf (leaf a) lim
        { timing := timing, transactionLimit := o } =
        transactionsToBalance (leaf a).acct t timing (some (.fin 0))
          (some (outCap c (outflows (leaf a).acct none) o)) none := by
      rcases hl with rfl | rfl
      · exact ⟨_, _, fun o => rfl⟩
      · exact ⟨_, _, fun o => rfl⟩
    rw [hct none] at hlim
    rw [hct (some (.fin x))] at hd
    obtain ⟨nt, ref, hnt, hw, hpos, href, hc⟩ := core ht
    rw [ttb_eq href ht.resolves hnt ht.growth hw] at hlim hd
    rw [ok_bind, sum_spread hw] at hlim
    simp only [Except.ok.injEq] at hlim
    set T := (t.subFin ref).mulFin (weightedAccum (leaf a).acct.A nt)⁻¹ with hT
    have hV : max (min T (.fin 0)) (outCap c (outflows (leaf a).acct none) (some (.fin x))) =
        .fin x := by
      rw [← hlim] at hxl
      unfold outCap at hxl ⊢
      simp only at hxl ⊢
      generalize c.subFin (outflows (leaf a).acct none) = C at hxl ⊢
      have h0 : (Ext.fin x : Ext K) ≤ .fin 0 := by simpa using hx
      obtain ⟨h1, h2⟩ := max_le_iff.1 hxl
      rcases eq_or_lt_of_le h0 with h0 | h0
      · rw [h0] at h1 h2 ⊢
        have e2 : min (max C (Ext.fin 0)) (.fin 0) = .fin 0 := min_eq_right (le_max_right _ _)
        rw [e2]
        exact max_eq_right (min_le_right _ _)
      · have hT' : T ≤ .fin x := by
          rcases min_le_iff.1 h1 with h | h
          · exact h
          · exact absurd h0 (not_lt.2 h)
        have hC' : C ≤ .fin x := by
          rcases min_le_iff.1 h2 with h | h
          · exact h
          · exact absurd h0 (not_lt.2 h)
        rw [max_eq_right hC', min_eq_left h0.le]
        exact max_eq_right ((min_le_left _ _).trans hT')
    simp only [← hT, hV, mapVals_fin, ok_bind, finiteVals_fin] at hd
    cases hd
    obtain ⟨h2, h3, -⟩ := hc x
    exact ⟨h2.wf, h3⟩

/-- **C68.** Accounts that grow sensibly are exact: asked for no more than their limit, they give
transactions for just that. -/
theorem C68_accounts_exact {E : Env N A K} {leaf : A → Leaf K} {timing : Option (Arg K)}
    (h : OfAccounts E leaf timing)
    (hr : ∀ a, ∃ tm, Ready (leaf a).acct timing none tm) : Exact E :=
  accounts_exact h fun a => (hr a).imp fun _ => Ready.fit

end Accounts

/-! ### Concrete cases -/

section Cases

/-- The two accounts of `sampleEnv`, with a flow algorithm that proves its answers. -/
def orderEnv : Env ℕ ℕ ℚ := { sampleEnv with solve := certified greedy }

theorem order_optimal : Optimal orderEnv :=
  ⟨fun g f h => certified_sound greedy g f h, fun _ _ h => h, fun _ _ => Iff.rfl⟩

theorem order_of : OfAccounts orderEnv sampleLeaf none := ⟨fun _ _ _ => rfl, fun _ _ => rfl⟩

theorem order_ready (a : ℕ) : ∃ tm, Account.Ready (sampleLeaf a).acct none none tm := by
  refine ⟨[(1 / 2, 1)], ?_⟩
  have hr : Account.Ready Account.sample none none [(1 / 2, 1)] :=
    ⟨Account.sample_reachable, Account.sample_growth, Account.sample_ready.resolves,
      Account.sample_ready.good, by simp⟩
  unfold sampleLeaf
  split_ifs
  · exact hr
  · exact hr

theorem order_answers : Answers orderEnv := (C42_accounts_answer order_of order_ready).1

theorem order_exact : Exact orderEnv := C68_accounts_exact order_of order_ready

theorem order_flat (lim : Lim) : Flat orderEnv lim [0, 1] id := by
  refine ⟨rfl, by decide, by decide, ?_, fun _ _ _ _ h => h, fun _ _ => rfl, fun _ _ => rfl⟩
  intro c hc
  simp only [List.mem_cons, List.not_mem_nil, or_false] at hc
  rcases hc with rfl | rfl <;> rfl

theorem order_call : call orderEnv 12 100 = .ok [(0, [(1 / 2, 30)]), (1, [(1 / 2, 70)])] := by
  decide +kernel

example : [given [(0, [(1 / 2, 30)]), (1, [(1 / 2, (70 : ℚ))])] 0,
    given [(0, [(1 / 2, 30)]), (1, [(1 / 2, 70)])] 1] =
    (fill ⌊(100 : ℚ) / 1⌋ [some ⌊(30 : ℚ) / 1⌋, none]).map fun x : ℤ => (1 : ℚ) * x :=
  C68_inflows_greedy order_optimal order_answers order_exact (by decide +kernel)
    (by decide +kernel) (order_flat _) (order_flat _)
    (fun c => if c = 0 then .fin 30 else .posInf)
    (by
      intro c hc
      simp only [List.mem_cons, List.not_mem_nil, or_false] at hc
      rcases hc with rfl | rfl <;> decide +kernel)
    (by
      intro c hc
      simp only [List.mem_cons, List.not_mem_nil, or_false] at hc
      rcases hc with rfl | rfl <;> decide +kernel) order_call

theorem order_call_out :
    call orderEnv 12 (-200) = .ok [(0, [(1 / 2, -130)]), (1, [(1 / 2, -70)])] := by
  decide +kernel

theorem order_root (n : ℕ) : orderEnv.tree.root ∉ childNodes orderEnv n := by
  change 2 ∉ childNodes orderEnv n
  by_cases h : n = 2
  · subst h; decide
  · simp [childNodes, orderEnv, sampleEnv, h]

example : [given [(0, [(1 / 2, (-130 : ℚ))]), (1, [(1 / 2, -70)])] 0,
    given [(0, [(1 / 2, -130)]), (1, [(1 / 2, -70)])] 1] =
    (fill ⌊-(-200 : ℚ) / 1⌋ [some ⌊(130 : ℚ) / 1⌋, some ⌊(130 : ℚ) / 1⌋]).map
      fun x : ℤ => -((1 : ℚ) * x) :=
  C68_outflows_in_order (cs := [0, 1]) (acc := id) (fuel := 12) order_optimal order_answers order_exact (by decide +kernel)
    (by decide +kernel) (order_flat _) rfl order_root (fun _ => 130)
    (by
      intro c hc
      simp only [List.mem_cons, List.not_mem_nil, or_false] at hc
      rcases hc with rfl | rfl <;> decide +kernel)
    (by
      intro c hc
      refine ⟨0, ?_, le_rfl⟩
      simp only [List.mem_cons, List.not_mem_nil, or_false] at hc
      rcases hc with rfl | rfl <;> decide +kernel) order_call_out

/-- Three accounts with minimums 10, 20 and 0 and maximums 40, 60 and none. -/
def minEnv : Env ℕ ℕ ℚ where
  tree := { root := 3, kind := fun n => if n = 3 then .ordered [0, 1, 2] else .leaf n }
  precision := 1 / 2
  limitOf a lim := .ok (match lim with
    | .minIn => if a = 0 then .fin 10 else if a = 1 then .fin 20 else .fin 0
    | .maxIn => if a = 0 then .fin 40 else if a = 1 then .fin 60 else .posInf
    | _ => .fin 0)
  txOf _ _ x := .ok [(1 / 2, x)]
  groupOf _ _ := none
  solve := certified greedy

theorem min_optimal : Optimal minEnv :=
  ⟨fun g f h => certified_sound greedy g f h, fun _ _ h => h, fun _ _ => Iff.rfl⟩

theorem min_answers : Answers minEnv := by
  constructor
  · intro a lim x d _ hx h
    cases h
    refine ⟨by simp [Dict.WF, Dict.keys], by simpa using hx, by simp [Dict.total]⟩
  · intro a lim x d _ hx h
    cases h
    refine ⟨by simp [Dict.WF, Dict.keys], by simpa using hx, by simp [Dict.total]⟩

theorem min_exact : Exact minEnv := by
  constructor
  · intro a lim l x d _ _ _ _ h
    cases h
    exact ⟨by simp [Dict.WF, Dict.keys], by simp [Dict.total]⟩
  · intro a lim l x d _ _ _ _ h
    cases h
    exact ⟨by simp [Dict.WF, Dict.keys], by simp [Dict.total]⟩

theorem min_flat (lim : Lim) : Flat minEnv lim [0, 1, 2] id := by
  refine ⟨rfl, by decide, by decide, ?_, fun _ _ _ _ h => h, fun _ _ => rfl, fun _ _ => rfl⟩
  intro c hc
  simp only [List.mem_cons, List.not_mem_nil, or_false] at hc
  rcases hc with rfl | rfl | rfl <;> rfl

/-- 55.3 in: 10 and 20 for the minimums, 25 more for the first account. -/
theorem min_call : call minEnv 12 (553 / 10) =
    .ok [(0, [(1 / 2, 35)]), (1, [(1 / 2, 20)]), (2, [(1 / 2, 0)])] := by
  decide +kernel

/-- 120.3 in. -/
theorem min_call' : call minEnv 12 (1203 / 10) =
    .ok [(0, [(1 / 2, 40)]), (1, [(1 / 2, 60)]), (2, [(1 / 2, 20)])] := by
  decide +kernel

example : [0, 1, 2].map (fun c => given
    [(0, [(1 / 2, (35 : ℚ))]), (1, [(1 / 2, 20)]), (2, [(1 / 2, 0)])] (id c)) =
    (twoPass ⌊(553 / 10 : ℚ) / (1 / 2)⌋ ([0, 1, 2].map fun c : ℕ =>
        ⌊(if c = 0 then (10 : ℚ) else if c = 1 then 20 else 0) / (1 / 2)⌋)
      ([0, 1, 2].map fun c : ℕ => wholeUnits (1 / 2 : ℚ)
        (if c = 0 then .fin 40 else if c = 1 then .fin 60 else .posInf))).map
      fun x : ℤ => (1 / 2 : ℚ) * x :=
  C68_inflows_in_order min_optimal min_answers min_exact (by decide +kernel)
    (by decide +kernel) (min_flat _) (min_flat _)
    (fun c => if c = 0 then 10 else if c = 1 then 20 else 0)
    (fun c => if c = 0 then .fin 40 else if c = 1 then .fin 60 else .posInf)
    (by
      intro c hc
      simp only [List.mem_cons, List.not_mem_nil, or_false] at hc
      rcases hc with rfl | rfl | rfl <;> decide +kernel)
    (by
      intro c hc
      simp only [List.mem_cons, List.not_mem_nil, or_false] at hc
      rcases hc with rfl | rfl | rfl <;> decide +kernel) min_call

example : (∀ (j : ℕ) (hj : j < [0, 1].length), 1 < j →
      given [(0, [(1 / 2, (30 : ℚ))]), (1, [(1 / 2, 70)])] (id [0, 1][j]) = 0) ∧
    (100 : ℚ) - 1 < ([0, 1].map fun c => given
      [(0, [(1 / 2, (30 : ℚ))]), (1, [(1 / 2, 70)])] (id c)).sum :=
  C68_inflows_priority order_optimal order_answers order_exact (by decide +kernel)
    (by decide +kernel) (order_flat _) (order_flat _)
    (fun c => if c = 0 then .fin 30 else .posInf)
    (by
      intro c hc
      simp only [List.mem_cons, List.not_mem_nil, or_false] at hc
      rcases hc with rfl | rfl <;> decide +kernel)
    (by
      intro c hc
      simp only [List.mem_cons, List.not_mem_nil, or_false] at hc
      rcases hc with rfl | rfl <;> decide +kernel) order_call 1 (by decide) (by decide +kernel)

end Cases

end Forecaster.Traversal
