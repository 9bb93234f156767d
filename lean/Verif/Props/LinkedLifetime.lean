import Verif.Model.RegisteredYears
import Verif.Props.LifetimeRoom

/-!
# C112: linked registered accounts over the years

C26 says that linked accounts never contribute more than the shared room *within a year*; C34, C35 and
C105 say how the room of a single account moves. Here: how the shared room of several linked accounts
moves over whole forecasts. Next year's room is worked out by whichever account of the group comes up
first when the forecast iterates over its set of accounts, and that account only looks at its own
transactions.
-/

set_option linter.unusedSectionVars false

namespace Forecaster.Registered

open Forecaster Forecaster.Timing Forecaster.Account Forecaster.Inflation Forecaster.Link

section General

variable {K : Type} [Field K] [LinearOrder K] [IsStrictOrderedRing K]

/-! ### specification -/

/-- Specification: the transactions of account number `i` on record for year `y`. -/
def recordOf (g : Grp K) (i : ℕ) (y : ℤ) : Dict K K :=
  match g.accts[i]? with
  | some r => (Dict.get? r.acct.txHist y).getD []
  | none => []

/-- Specification: the account that came up first at the end of the `k`-th year. -/
def leader (hist : List (Year K)) (k : ℕ) : ℕ :=
  match hist[k]? with
  | some h => h.order.headD 0
  | none => 0

/-- Specification: each year all accounts of a group of `L` come up, in any order. -/
def Orderly (L : ℕ) (hist : List (Year K)) : Prop := ∀ h ∈ hist, h.order.Perm (List.range L)

/-! ### a group in step -/

/-- All accounts of the group are in year `y`, in good order, and nothing is known of the room of later
years. -/
structure InStep (y : ℤ) (g : Grp K) : Prop where
  sync : ∀ s ∈ g.accts, s.acct.year = y
  inv : ∀ s ∈ g.accts, Inv s.acct
  inputs : ∀ s ∈ g.accts, s.inputs = []
  fut : ∀ s ∈ g.accts, ∀ z, y ≤ z → Dict.get? s.roomHist z = none

theorem InStep.room {y : ℤ} {g : Grp K} (h : InStep y g) {r : Reg K} (hr : r ∈ g.accts) :
    contributionRoom g r = g.room := by
  unfold contributionRoom
  rw [h.sync r hr, h.fut r hr y le_rfl]

theorem instep_add {y : ℤ} {g g' : Grp K} (h : InStep y g) {i : ℕ} {v : K} {w : When K}
    (e : addTo g i v w = .ok g') :
    InStep y g' ∧ g'.room = g.room ∧ g'.accts.length = g.accts.length ∧
      (∀ j z, recordOf g' j z = recordOf g j z) := by
  obtain ⟨s, a, hi, ha, rfl⟩ := addTo_spec e
  have hs := List.mem_of_getElem? hi
  have hinv := inv_addTransaction (h.inv s hs) ha
  obtain ⟨d, rfl⟩ := addTransaction_shape ha
  have key : ∀ (P : Reg K → Prop), (∀ t ∈ g.accts, P t) →
      P { s with acct := { s.acct with txns := d } } →
      ∀ t ∈ g.accts.set i { s with acct := { s.acct with txns := d } }, P t := by
    intro P h1 h2 t ht
    rcases List.mem_or_eq_of_mem_set ht with h | rfl
    · exact h1 t h
    · exact h2
  refine ⟨⟨key _ h.sync (h.sync s hs), key _ h.inv hinv, key _ h.inputs (h.inputs s hs),
    key _ h.fut (h.fut s hs)⟩, rfl, by simp, fun j z => ?_⟩
  unfold recordOf
  simp only
  by_cases hij : i = j
  · subst hij
    have hlt : i < g.accts.length := (List.getElem?_eq_some_iff.1 hi).1
    rw [hi]
    simp [hlt]
  · rw [List.getElem?_set_ne hij]

theorem instep_adds {y : ℤ} {g g' : Grp K} (h : InStep y g) {adds : List (ℕ × K × When K)}
    (e : adds.foldlM (fun g a => addTo g a.1 a.2.1 a.2.2) g = .ok g') :
    InStep y g' ∧ g'.room = g.room ∧ g'.accts.length = g.accts.length ∧
      (∀ j z, recordOf g' j z = recordOf g j z) := by
  induction adds generalizing g with
  | nil => cases e; exact ⟨h, rfl, rfl, fun _ _ => rfl⟩
  | cons a adds ih =>
    rw [List.foldlM_cons] at e
    cases ha : addTo g a.1 a.2.1 a.2.2 with
    | error er => rw [ha] at e; cases e
    | ok g1 =>
      rw [ha, ok_bind] at e
      obtain ⟨h1, h2, h3, h4⟩ := instep_add h ha
      obtain ⟨k1, k2, k3, k4⟩ := ih h1 e
      exact ⟨k1, k2.trans h2, k3.trans h3, fun j z => (k4 j z).trans (h4 j z)⟩

/-- Opening a year: the first account decides, all move on together. -/
theorem open_step (next : Grp K → Reg K → Except PyErr K) {y : ℤ} {g : Grp K} (h : InStep y g)
    {i : ℕ} {rest : List ℕ} {r : Reg K} (hi : g.accts[i]? = some r) {v : K} (hv : next g r = .ok v)
    {fuel : ℕ} (hf : g.accts.length ≤ fuel) :
    ∃ g', openYear next fuel (y + 1) (i :: rest) g = .ok g' ∧ InStep (y + 1) g' ∧ g'.room = v ∧
      g'.accts.length = g.accts.length ∧
      (∀ (j : ℕ) (s : Reg K), g.accts[j]? = some s → ∃ s' : Reg K, g'.accts[j]? = some s' ∧
        Account.nextYear s.acct = .ok s'.acct) ∧
      (∀ j z, z ≠ y → recordOf g' j z = recordOf g j z) ∧
      (∀ (j : ℕ) (s : Reg K), g.accts[j]? = some s → recordOf g' j y = s.acct.txns) := by
  have hr := List.mem_of_getElem? hi
  have hry := h.sync r hr
  have hp : plannedRoom next g r = .ok (some v) := by
    unfold plannedRoom
    rw [if_pos (by rw [hry]; exact inSync_iff.2 h.sync), hry, h.fut r hr _ (by omega), hv]
    rfl
  obtain ⟨r', g1, e, ey, q2, q3, q4, q5, q6⟩ := nextYear_sync next h.sync h.inv hi hp hf
  have hadv : ∀ (j : ℕ) (s : Reg K), g.accts[j]? = some s → ∃ s', g1.accts[j]? = some s' ∧ advance g s = .ok s' := by
    intro j s hj
    obtain ⟨s', hs', hR⟩ := forall₂_get q2.each hj
    refine ⟨s', hs', ?_⟩
    rcases hR with rfl | ⟨-, h'⟩
    · have := q3 s' (List.mem_of_getElem? hs')
      have := h.sync s' (List.mem_of_getElem? hj)
      omega
    · exact h'
  have hlen := q2.each.length_eq
  have hback : ∀ s' ∈ g1.accts, ∃ s ∈ g.accts, advance g s = .ok s' := by
    intro s' hs'
    obtain ⟨j, hj⟩ := List.getElem?_of_mem hs'
    obtain ⟨s, hs, -⟩ := forall₂_get q2.each.flip hj
    obtain ⟨t, ht, ha⟩ := hadv j s hs
    rw [hj] at ht
    cases ht
    exact ⟨s, List.mem_of_getElem? hs, ha⟩
  obtain ⟨r1, e1, f1, f2, f3, f4, f5, f6⟩ := advance_spec (g := g) (h.inv r hr)
  rw [e] at e1
  cases e1
  set r2 : Reg K := { r' with roomHist := Dict.del r'.roomHist (y + 1) } with hr2
  have hset : setContributionRoom g1 i v = .ok { g1 with accts := g1.accts.set i r2, room := v } := by
    unfold setContributionRoom
    rw [q4]
    simp only
    have hin : r'.inputs = [] := by rw [f4, h.inputs r hr]
    rw [if_neg (by rw [hin]; simp [Dict.keys]), ey]
  have hnext := q6.trans hset
  have hlt : i < g1.accts.length := (List.getElem?_eq_some_iff.1 q4).1
  -- the accounts afterwards
  have hget : ∀ (j : ℕ) (s : Reg K), g.accts[j]? = some s → ∃ s' a', (g1.accts.set i r2)[j]? = some s' ∧
      advance g s = .ok a' ∧ s'.acct = a'.acct ∧ s'.inputs = a'.inputs ∧
      (∀ z, Dict.get? a'.roomHist z = none → Dict.get? s'.roomHist z = none) := by
    intro j s hj
    obtain ⟨a', ha', hadv'⟩ := hadv j s hj
    by_cases hij : i = j
    · subst hij
      rw [q4] at ha'
      cases ha'
      refine ⟨r2, r', by simp [hlt], hadv', rfl, rfl, fun z hz => ?_⟩
      rw [Dict.get?_eq_none] at hz ⊢
      intro hc
      exact hz ((List.Sublist.map Prod.fst (Dict.del_sublist _ _)).subset hc)
    · exact ⟨a', a', by rw [List.getElem?_set_ne hij]; exact ha', hadv', rfl, rfl, fun _ h => h⟩
  have hmem : ∀ s' ∈ g1.accts.set i r2, ∃ (j : ℕ) (s : Reg K), g.accts[j]? = some s ∧
      (g1.accts.set i r2)[j]? = some s' := by
    intro s' hs'
    obtain ⟨j, hj⟩ := List.getElem?_of_mem hs'
    have hjl : j < g.accts.length := by
      have := (List.getElem?_eq_some_iff.1 hj).1
      simpa [hlen] using this
    exact ⟨j, g.accts[j], List.getElem?_eq_getElem hjl, hj⟩
  have hstep : InStep (y + 1) ({ g1 with accts := g1.accts.set i r2, room := v } : Grp K) := by
    refine ⟨?_, ?_, ?_, ?_⟩
    all_goals
      intro s' hs'
      obtain ⟨j, s, hj, hj'⟩ := hmem s' hs'
      obtain ⟨s1, a', k1, k2, k3, k4, k5⟩ := hget j s hj
      rw [hj'] at k1
      cases k1
      have hs := List.mem_of_getElem? hj
      obtain ⟨a1, m0, m1, m2, m3, m4, m5, m6⟩ := advance_spec (g := g) (h.inv s hs)
      rw [k2] at m0
      cases m0
      have hsy := h.sync s hs
    · rw [k3, m1, hsy]
    · rw [k3]; exact m2
    · rw [k4, m4]; exact h.inputs s hs
    · intro z hz
      apply k5
      rw [m6 z (by omega)]
      exact h.fut s hs z (by omega)
  -- the rest of the loop does nothing
  have hrest : ∀ (l : List ℕ) (g' : Grp K), InStep (y + 1) g' →
      l.foldlM (fun g j => catchUp (nextYear next fuel) (y + 1) j (behind (y + 1) g j) g) g'
        = (.ok g' : Except PyErr (Grp K)) := by
    intro l g' hg'
    induction l with
    | nil => rfl
    | cons j l ih =>
      rw [List.foldlM_cons]
      have hb : behind (y + 1) g' j = 0 := by
        unfold behind
        cases hj : g'.accts[j]? with
        | none => rfl
        | some s => simp [hg'.sync s (List.mem_of_getElem? hj)]
      rw [hb]
      exact ih
  have hb : behind (y + 1) g i = 1 := by
    unfold behind; rw [hi]; simp only; rw [hry]; omega
  have hfirst : catchUp (nextYear next fuel) (y + 1) i (behind (y + 1) g i) g
      = .ok { g1 with accts := g1.accts.set i r2, room := v } := by
    rw [hb]
    unfold catchUp
    rw [hi]
    simp only
    rw [if_pos (by omega), hnext, ok_bind]
    rfl
  have htx : ∀ (j : ℕ) (s : Reg K), g.accts[j]? = some s → ∃ s', (g1.accts.set i r2)[j]? = some s' ∧
      s'.acct.txHist = Dict.set s.acct.txHist y s.acct.txns := by
    intro j s hj
    obtain ⟨s', a', k1, k2, k3, -⟩ := hget j s hj
    have hs := List.mem_of_getElem? hj
    obtain ⟨a1, m0, m1, m2, m3, -⟩ := advance_spec (g := g) (h.inv s hs)
    rw [k2] at m0
    cases m0
    obtain ⟨b, hb⟩ := (h.inv s hs).balance_ok
    rw [nextYear_eq hb] at m3
    refine ⟨s', k1, ?_⟩
    rw [k3, ← Except.ok.inj m3, h.sync s hs]
  refine ⟨_, ?_, hstep, rfl, by simp [hlen], ?_, ?_, ?_⟩
  · unfold openYear
    rw [List.foldlM_cons, hfirst, ok_bind, hrest _ _ hstep]
  · intro j s hj
    obtain ⟨s', a', k1, k2, k3, -⟩ := hget j s hj
    obtain ⟨a1, m0, -, -, m3, -⟩ := advance_spec (g := g) (h.inv s (List.mem_of_getElem? hj))
    rw [k2] at m0
    cases m0
    exact ⟨s', k1, by rw [k3]; exact m3⟩
  · intro j z hz
    unfold recordOf
    simp only
    cases hj : g.accts[j]? with
    | none =>
      have : (g1.accts.set i r2)[j]? = none := by
        rw [List.getElem?_eq_none_iff] at hj ⊢
        simpa [← hlen] using hj
      rw [this]
    | some s =>
      obtain ⟨s', k1, k2⟩ := htx j s hj
      rw [k1]
      simp only
      rw [k2, Dict.get?_set_ne _ _ (Ne.symm hz)]
  · intro j s hj
    obtain ⟨s', k1, k2⟩ := htx j s hj
    unfold recordOf
    simp only
    rw [k1]
    simp only
    rw [k2, Dict.get?_set, if_pos rfl]
    rfl

theorem instep_new (y0 : ℤ) (as : List (Acct K)) (hy : ∀ a ∈ as, a.year = y0)
    (hi : ∀ a ∈ as, Inv a) (room0 : K) (c : ℤ) : InStep y0 (newGroup as room0 c) := by
  refine ⟨?_, ?_, ?_, ?_⟩ <;> intro s hs <;> simp only [newGroup, List.mem_map] at hs <;>
    obtain ⟨a, ha, rfl⟩ := hs
  · exact hy a ha
  · exact hi a ha
  · rfl
  · intro z _; rfl

theorem head_lt {L : ℕ} {l : List ℕ} (h : l.Perm (List.range L)) (hL : 0 < L) :
    ∃ i rest, l = i :: rest ∧ i < L := by
  cases l with
  | nil =>
    have := h.length_eq
    simp at this
    omega
  | cons i rest => exact ⟨i, rest, rfl, List.mem_range.1 (h.subset (by simp))⟩

/-- The room over the years, for whatever an account makes of its own transactions (`flow`). -/
theorem room_years {next : Grp K → Reg K → Except PyErr K} {flow : Dict K K → K} {acc : ℤ → K}
    (hist : List (Year K)) :
    ∀ {y : ℤ} {g g' : Grp K}, InStep y g → 0 < g.accts.length →
    Orderly g.accts.length hist → ∀ {fuel : ℕ}, g.accts.length ≤ fuel →
    (∀ g r, y ≤ r.acct.year → r.acct.year < y + hist.length →
      next g r = .ok (acc (r.acct.year + 1) + (contributionRoom g r - flow r.acct.txns))) →
    forecastYears next fuel y g hist = .ok g' →
    InStep (y + hist.length) g' ∧ g'.accts.length = g.accts.length ∧
    (∀ j z, z < y → recordOf g' j z = recordOf g j z) ∧
    g'.room + ∑ k ∈ Finset.range hist.length, flow (recordOf g' (leader hist k) (y + k))
      = g.room + ∑ k ∈ Finset.range hist.length, acc (y + k + 1) := by
  induction hist with
  | nil =>
    intro y g g' h _ _ fuel _ _ e
    cases e
    exact ⟨by simpa using h, rfl, fun _ _ _ => rfl, by simp⟩
  | cons h0 hist ih =>
    intro y g g' h hL ho fuel hf hnext e
    unfold forecastYears forecastYear at e
    cases ea : h0.adds.foldlM (fun g a => addTo g a.1 a.2.1 a.2.2) g with
    | error er => rw [ea] at e; cases e
    | ok g1 =>
      rw [ea, ok_bind] at e
      obtain ⟨a1, a2, a3, a4⟩ := instep_adds h ea
      obtain ⟨i, rest, hor, hi⟩ := head_lt (ho h0 (by simp)) hL
      have hil : i < g1.accts.length := by omega
      have hget : g1.accts[i]? = some g1.accts[i] := List.getElem?_eq_getElem hil
      have hmem := List.mem_of_getElem? hget
      have hyr := a1.sync _ hmem
      obtain ⟨g2, b1, b2, b3, b4, -, b6, b7⟩ := open_step next a1 (rest := rest) hget
        (hnext g1 _ hyr.ge (by rw [hyr]; simp only [List.length_cons]; push_cast; omega))
        (fuel := fuel) (by rw [a3]; exact hf)
      rw [hor, b1, ok_bind] at e
      obtain ⟨c1, c2, c3, c4⟩ := ih b2 (by omega) (by
        rw [b4, a3]; exact fun x hx => ho x (by simp [hx])) (by rw [b4, a3]; exact hf)
        (fun g r h1 h2 => hnext g r (by omega) (by simp only [List.length_cons]; push_cast; omega)) e
      refine ⟨?_, by omega, ?_, ?_⟩
      · have : y + ((h0 :: hist).length : ℕ) = y + 1 + (hist.length : ℕ) := by
          simp only [List.length_cons]; push_cast; ring
        rw [this]
        exact c1
      · intro j z hz
        rw [c3 j z (by omega), b6 j z (by omega), a4]
      · rw [List.length_cons, Finset.sum_range_succ', Finset.sum_range_succ']
        have hl0 : leader (h0 :: hist) 0 = i := by simp [leader, hor]
        have hls : ∀ k, leader (h0 :: hist) (k + 1) = leader hist k := by
          intro k; simp [leader]
        have e1 : ∀ k ∈ Finset.range hist.length,
            flow (recordOf g' (leader (h0 :: hist) (k + 1)) (y + ((k + 1 : ℕ) : ℤ)))
              = flow (recordOf g' (leader hist k) (y + 1 + (k : ℤ))) := by
          intro k _
          rw [hls]
          congr 2
          push_cast; ring
        have e2 : ∀ k ∈ Finset.range hist.length,
            acc (y + ((k + 1 : ℕ) : ℤ) + 1) = acc (y + 1 + (k : ℤ) + 1) := by
          intro k _
          congr 1
          push_cast; ring
        rw [Finset.sum_congr rfl e1, Finset.sum_congr rfl e2, hl0]
        have e3 : recordOf g' i (y + ((0 : ℕ) : ℤ)) = g1.accts[i].acct.txns := by
          rw [Nat.cast_zero, add_zero, c3 i y (by omega), b7 i _ hget]
        rw [e3, Nat.cast_zero, add_zero]
        rw [b3, a1.room hmem, hyr, a2] at c4
        linear_combination c4

/-- Specification: `total` is the sum of what `max_inflows()` answers for account number `i` of the
group, taking into account what the other accounts of the group have contributed this year. -/
def GroupAllows (g : Grp K) (i : ℕ) (total : K) : Prop :=
  ∃ r d, g.accts[i]? = some r ∧
    linkedMaxInflows { plainLimits with maxIn := .fin g.room } r.acct {} none
      (some ((g.accts.eraseIdx i).map fun b => (b.acct.txns, none))) = .ok (Dict.mapVals Ext.fin d) ∧
    total = (Dict.vals d).sum

end General

/-! ### TFSAs -/

section TFSA

variable {K : Type} [Field K] [LinearOrder K] [IsStrictOrderedRing K] [FloorRing K]

theorem tfsa_next (e : TfsaEnv K) (acc : ℤ → K) (hacc : ∀ y, accrual e y = .ok (acc y)) (g : Grp K)
    (r : Reg K) :
    tfsaNext e g r = .ok (acc (r.acct.year + 1) + (contributionRoom g r - net r.acct.txns)) := by
  have := pos_add_neg r.acct.txns
  unfold Dict.total at this
  simp only [tfsaNext, hacc, ok_bind, outflows, inflows, net]
  rw [← this]
  congr 2
  ring

/-- **C112.** The shared room of linked TFSAs over any forecast: what is left, plus the net
contributions that went, in each past year, into the one account that happened to come up first at the
end of that year, is the first room plus all the accruals since. The net contributions to the other
accounts of the group are not deducted. -/
theorem C112_tfsa_room (e : TfsaEnv K) (acc : ℤ → K) (hacc : ∀ y, accrual e y = .ok (acc y))
    (y0 : ℤ) (as : List (Acct K)) (hne : as ≠ []) (hy : ∀ a ∈ as, a.year = y0)
    (hr : ∀ a ∈ as, Reachable a) (room0 : K) (c : ℤ) (hist : List (Year K))
    (ho : Orderly as.length hist) (fuel : ℕ) (hf : as.length ≤ fuel) (g : Grp K)
    (h : forecastYears (tfsaNext e) fuel y0 (newGroup as room0 c) hist = .ok g) :
    (∀ s ∈ g.accts, s.acct.year = y0 + hist.length) ∧
    g.room + ∑ k ∈ Finset.range hist.length, net (recordOf g (leader hist k) (y0 + k))
      = room0 + ∑ k ∈ Finset.range hist.length, acc (y0 + k + 1) := by
  have hlen : (newGroup as room0 c).accts.length = as.length := by simp [newGroup]
  obtain ⟨h1, -, -, h4⟩ := room_years (flow := net) (acc := acc) hist
    (instep_new y0 as hy (fun a ha => (hr a ha).inv) room0 c)
    (by rw [hlen]; exact List.length_pos_of_ne_nil hne) (by rw [hlen]; exact ho)
    (by rw [hlen]; exact hf) (fun g r _ _ => tfsa_next e acc hacc g r) h
  exact ⟨h1.sync, h4⟩

/-- **C112, conservation, as far as it goes**: if all transactions of the group are, in each year, made
with the account that comes up first at the end of it, room is conserved as it is for one account. -/
theorem C112_tfsa_conserved (e : TfsaEnv K) (acc : ℤ → K) (hacc : ∀ y, accrual e y = .ok (acc y))
    (y0 : ℤ) (as : List (Acct K)) (hne : as ≠ []) (hy : ∀ a ∈ as, a.year = y0)
    (hr : ∀ a ∈ as, Reachable a) (room0 : K) (c : ℤ) (hist : List (Year K))
    (ho : Orderly as.length hist) (fuel : ℕ) (hf : as.length ≤ fuel) (g : Grp K)
    (h : forecastYears (tfsaNext e) fuel y0 (newGroup as room0 c) hist = .ok g)
    (hlead : ∀ k < hist.length, ∀ j, j ≠ leader hist k → net (recordOf g j (y0 + k)) = 0) :
    g.room + ∑ k ∈ Finset.range hist.length, ∑ j ∈ Finset.range as.length,
        net (recordOf g j (y0 + k))
      = room0 + ∑ k ∈ Finset.range hist.length, acc (y0 + k + 1) := by
  rw [← (C112_tfsa_room e acc hacc y0 as hne hy hr room0 c hist ho fuel hf g h).2]
  congr 1
  refine Finset.sum_congr rfl fun k hk => ?_
  have hk := Finset.mem_range.1 hk
  rw [Finset.sum_eq_single (leader hist k)]
  · intro j _ hj
    exact hlead k hk j hj
  · intro hn
    exfalso
    apply hn
    rw [Finset.mem_range]
    unfold leader
    rw [List.getElem?_eq_getElem hk]
    simp only
    obtain ⟨i, rest, hi, hlt⟩ := head_lt (ho _ (List.getElem_mem hk))
      (List.length_pos_of_ne_nil hne)
    rw [hi]
    exact hlt

/-- **C112 (the order of a set of accounts matters).** After any years, and any transactions of the
current one: if the forecast comes to account `i` first, or to account `j` first, next year's room can
be worked out in either case, and the two differ by the difference in the net contributions of the two
accounts. -/
theorem C112_order_refuted (e : TfsaEnv K) (acc : ℤ → K) (hacc : ∀ y, accrual e y = .ok (acc y))
    (y0 : ℤ) (as : List (Acct K)) (hy : ∀ a ∈ as, a.year = y0)
    (hr : ∀ a ∈ as, Reachable a) (room0 : K) (c : ℤ) (hist : List (Year K))
    (ho : Orderly as.length hist) (fuel : ℕ) (hf : as.length ≤ fuel) (g g1 : Grp K)
    (h : forecastYears (tfsaNext e) fuel y0 (newGroup as room0 c) hist = .ok g)
    (adds : List (ℕ × K × When K))
    (ha : adds.foldlM (fun g a => addTo g a.1 a.2.1 a.2.2) g = .ok g1)
    (i j : ℕ) (ri rj : Reg K) (hi : g1.accts[i]? = some ri) (hj : g1.accts[j]? = some rj)
    (rest rest' : List ℕ) :
    ∃ gi gj, openYear (tfsaNext e) fuel (y0 + hist.length + 1) (i :: rest) g1 = .ok gi ∧
      openYear (tfsaNext e) fuel (y0 + hist.length + 1) (j :: rest') g1 = .ok gj ∧
      gi.room - gj.room = net rj.acct.txns - net ri.acct.txns ∧
      gi.accts.map (·.acct) = gj.accts.map (·.acct) := by
  have hlen : (newGroup as room0 c).accts.length = as.length := by simp [newGroup]
  have hlt0 : ∀ {l : List (Reg K)} {i : ℕ} {r : Reg K}, l[i]? = some r → 0 < l.length := by
    intro l i r h
    have := (List.getElem?_eq_some_iff.1 h).1
    omega
  have hg : InStep (y0 + hist.length) g ∧ g.accts.length = as.length := by
    by_cases hne : as = []
    · subst hne
      exfalso
      have : ∀ (hist : List (Year K)) (y : ℤ) (g g' : Grp K), g.accts = [] →
          (∀ h ∈ hist, h.order.Perm (List.range 0)) →
          forecastYears (tfsaNext e) fuel y g hist = .ok g' → g'.accts = [] := by
        intro hist
        induction hist with
        | nil => intro y g g' hg _ h; cases h; exact hg
        | cons h0 hist ih =>
          intro y g g' hg ho h
          unfold forecastYears forecastYear at h
          cases hadds : h0.adds with
          | cons a l =>
            rw [hadds, List.foldlM_cons] at h
            simp only [addTo, hg] at h
            cases h
          | nil =>
            have hor : h0.order = [] := by
              have := (ho h0 (by simp)).length_eq
              simpa using this
            rw [hadds, hor] at h
            exact ih _ _ _ hg (fun x hx => ho x (by simp [hx])) h
      have h0 := this hist y0 _ g (by simp [newGroup]) (by simpa [Orderly] using ho) h
      cases adds with
      | cons a l =>
        rw [List.foldlM_cons] at ha
        simp only [addTo, h0] at ha
        cases ha
      | nil =>
        cases ha
        rw [h0] at hi
        simp at hi
    · obtain ⟨h1, h2, -⟩ := room_years (flow := net) (acc := acc) hist
        (instep_new y0 as hy (fun a ha => (hr a ha).inv) room0 c)
        (by rw [hlen]; exact List.length_pos_of_ne_nil hne) (by rw [hlen]; exact ho)
        (by rw [hlen]; exact hf) (fun g r _ _ => tfsa_next e acc hacc g r) h
      exact ⟨h1, by rw [h2, hlen]⟩
  obtain ⟨a1, a2, a3, -⟩ := instep_adds hg.1 ha
  obtain ⟨gi, b1, b2, b3, b4, b5, -⟩ := open_step (tfsaNext e) a1 (rest := rest) hi
    (tfsa_next e acc hacc g1 ri) (fuel := fuel) (by rw [a3, hg.2]; exact hf)
  obtain ⟨gj, c1, c2, c3, c4, c5, -⟩ := open_step (tfsaNext e) a1 (rest := rest') hj
    (tfsa_next e acc hacc g1 rj) (fuel := fuel) (by rw [a3, hg.2]; exact hf)
  refine ⟨gi, gj, b1, c1, ?_, ?_⟩
  · rw [b3, c3, a1.room (List.mem_of_getElem? hi), a1.room (List.mem_of_getElem? hj),
      a1.sync _ (List.mem_of_getElem? hi), a1.sync _ (List.mem_of_getElem? hj)]
    ring
  · apply List.ext_getElem?
    intro k
    rw [List.getElem?_map, List.getElem?_map]
    cases hk : g1.accts[k]? with
    | none =>
      rw [List.getElem?_eq_none_iff] at hk
      rw [List.getElem?_eq_none (by omega), List.getElem?_eq_none (by omega)]
    | some s =>
      obtain ⟨s1, d1, d2⟩ := b5 k s hk
      obtain ⟨s2, d3, d4⟩ := c5 k s hk
      rw [d2] at d4
      rw [d1, d3]
      simp [Except.ok.inj d4]

/-! ### going beyond the entitlement -/

/-- Two new TFSAs of the same contributor, whose default timing is one date in the year. -/
def pair (y0 : ℤ) (b0 b1 : K) (growth : ℤ → K → K) (t room0 : K) (c : ℤ) : Grp K :=
  newGroup [Account.init y0 b0 growth [(t, 1)], Account.init y0 b1 growth [(t, 1)]] room0 c

/-- Specification: somebody who each year contributes `v k` to the second account; the first account
comes up first at the end of each year. -/
def secondOnly (t : K) (v : ℕ → K) (n : ℕ) : List (Year K) :=
  (List.range n).map fun k => ⟨[(1, v k, .num t)], [0, 1]⟩

theorem years_append (next : Grp K → Reg K → Except PyErr K) (fuel : ℕ) (l l' : List (Year K)) :
    ∀ (y : ℤ) (g g1 : Grp K), forecastYears next fuel y g l = .ok g1 →
      forecastYears next fuel y g (l ++ l') = forecastYears next fuel (y + l.length) g1 l' := by
  induction l with
  | nil => intro y g g1 h; cases h; simp
  | cons h0 l ih =>
    intro y g g1 h
    rw [List.cons_append]
    rw [forecastYears] at h ⊢
    cases hy : forecastYear next fuel y g h0 with
    | error er => rw [hy] at h; cases h
    | ok g2 =>
      rw [hy, ok_bind] at h
      rw [ok_bind, ih _ _ _ h]
      have : y + 1 + (l.length : ℤ) = y + ((h0 :: l).length : ℤ) := by
        simp only [List.length_cons]; push_cast; ring
      rw [this]

/-- State of the pair between two years. -/
structure PairAt (growth : ℤ → K → K) (t room : K) (y : ℤ) (g : Grp K) : Prop where
  step : InStep y g
  len : g.accts.length = 2
  room : g.room = room
  idle : ∀ s ∈ g.accts, s.acct.txns = []
  timing : ∀ s ∈ g.accts, s.acct.defaultTiming = [(t, 1)]
  growth : ∀ s ∈ g.accts, s.acct.growth = growth
  reach : ∀ s ∈ g.accts, Reachable s.acct

theorem good_date {t : K} (ht : 0 ≤ t ∧ t ≤ 1) : GoodTiming ([(t, 1)] : Dict K K) := by
  refine ⟨⟨by simp [Dict.WF, Dict.keys], ?_⟩, ?_, by simp⟩
  · intro k hk
    simp [Dict.keys] at hk
    subst hk
    exact ht
  · intro kv hkv
    simp at hkv
    subst hkv
    exact zero_le_one

theorem pair_allows {growth : ℤ → K → K} (hG : ∀ y, IsGrowth (growth y)) {t room : K}
    (ht : 0 ≤ t ∧ t ≤ 1) (h0 : 0 ≤ room) {y : ℤ} {g : Grp K} (h : PairAt growth t room y g) :
    GroupAllows g 1 room := by
  have hlt : 1 < g.accts.length := by rw [h.len]; omega
  set r := g.accts[1] with hrdef
  have hget : g.accts[1]? = some r := List.getElem?_eq_getElem hlt
  have hmem := List.mem_of_getElem? hget
  have hA : IsGrowth r.acct.A := by
    have := hG r.acct.year
    rw [← h.growth r hmem] at this
    exact this
  have hm : mergeTransactions none none (some ((g.accts.eraseIdx 1).map fun b =>
      (b.acct.txns, (none : Option (Dict K K))))) = [] := by
    unfold mergeTransactions
    simp only [Option.getD_none]
    have : ∀ l : List (Reg K), (∀ s ∈ l, s.acct.txns = []) →
        (l.map fun b => (b.acct.txns, (none : Option (Dict K K)))).foldl mergeOne [] = [] := by
      intro l hl
      induction l with
      | nil => rfl
      | cons s l ih =>
        rw [List.map_cons, List.foldl_cons]
        have : mergeOne [] (s.acct.txns, (none : Option (Dict K K))) = [] := by
          rw [hl s (by simp)]; rfl
        rw [this]
        exact ih fun s hs => hl s (by simp [hs])
    exact this _ fun s hs => h.idle s (List.mem_of_mem_eraseIdx hs)
  have hR : Ready r.acct none (some []) [(t, 1)] := ⟨h.reach r hmem, hA, by
    show Except.ok r.acct.defaultTiming = _
    rw [h.timing r hmem], good_date ht, by
    intro d hd
    cases hd
    exact ⟨List.nodup_nil, by simp⟩⟩
  obtain ⟨d, e1, -, -, e4⟩ := (C23_max_inflows { plainLimits with maxIn := .fin g.room } r.acct
    { transactions := some [] } [(t, 1)] hR rfl).1 g.room rfl rfl
  refine ⟨r, d, hget, ?_, ?_⟩
  · unfold linkedMaxInflows
    simp only [hm]
    exact e1
  · have : paidIn r.acct (some []) = 0 := by simp [paidIn, h.idle r hmem]
    unfold Dict.total at e4
    rw [this, sub_zero, h.room, max_eq_left h0] at e4
    exact e4.symm

theorem pair_year {e : TfsaEnv K} {acc : ℤ → K} (hacc : ∀ y, accrual e y = .ok (acc y))
    {growth : ℤ → K → K} {t room : K} (ht : 0 ≤ t ∧ t ≤ 1) {y : ℤ} {g : Grp K}
    (h : PairAt growth t room y g) (v : K) :
    ∃ g', forecastYear (tfsaNext e) 2 y g ⟨[(1, v, .num t)], [0, 1]⟩ = .ok g' ∧
      PairAt growth t (room + acc (y + 1)) (y + 1) g' ∧ recordOf g' 1 y = [(t, v)] ∧
      ∀ z, z ≠ y → recordOf g' 1 z = recordOf g 1 z := by
  have hlt : 1 < g.accts.length := by rw [h.len]; omega
  have hlt0 : 0 < g.accts.length := by omega
  obtain ⟨r, hr⟩ : ∃ r, g.accts[1]? = some r := ⟨_, List.getElem?_eq_getElem hlt⟩
  obtain ⟨r0, hr0⟩ : ∃ r, g.accts[0]? = some r := ⟨_, List.getElem?_eq_getElem hlt0⟩
  have hmem := List.mem_of_getElem? hr
  have hw := whenConv_ok ht.1 ht.2
  have hadd := addTransaction_eq (a := r.acct) (v := v) hw
  have htx : Dict.set r.acct.txns t (Dict.val r.acct.txns t + v) = [(t, v)] := by
    rw [h.idle r hmem]; simp [Dict.set, Dict.val, Dict.get?]
  rw [htx] at hadd
  set r1 : Reg K := { r with acct := { r.acct with txns := [(t, v)] } } with hr1
  have ea : addTo g 1 v (.num t) = .ok { g with accts := g.accts.set 1 r1 } := by
    unfold addTo
    rw [hr]
    simp only [hadd, ok_bind]
    rfl
  obtain ⟨a1, a2, a3, a4⟩ := instep_add h.step ea
  set g1 : Grp K := { g with accts := g.accts.set 1 r1 } with hg1
  have hget0 : g1.accts[0]? = some r0 := by
    show (g.accts.set 1 r1)[0]? = _
    rw [List.getElem?_set_ne (by omega)]
    exact hr0
  have hget1 : g1.accts[1]? = some r1 := by
    show (g.accts.set 1 r1)[1]? = _
    simp [hlt]
  have hm0 := List.mem_of_getElem? hget0
  obtain ⟨g', b1, b2, b3, b4, b5, b6, b7⟩ := open_step (tfsaNext e) a1 (rest := [1]) hget0
    (tfsa_next e acc hacc g1 r0) (fuel := 2) (by rw [a3, h.len])
  have hback : ∀ s' ∈ g'.accts, ∃ s ∈ g.accts, s'.acct.txns = [] ∧
      s'.acct.defaultTiming = s.acct.defaultTiming ∧ s'.acct.growth = s.acct.growth ∧
      (Reachable s.acct → Reachable s'.acct) := by
    intro s' hs'
    obtain ⟨j, hj⟩ := List.getElem?_of_mem hs'
    have hjl : j < g1.accts.length := by
      have := (List.getElem?_eq_some_iff.1 hj).1
      omega
    obtain ⟨s, hs⟩ : ∃ s, g1.accts[j]? = some s := ⟨_, List.getElem?_eq_getElem hjl⟩
    obtain ⟨s2, k1, k2⟩ := b5 j s hs
    rw [hj] at k1
    cases k1
    have hinv := a1.inv s (List.mem_of_getElem? hs)
    obtain ⟨b, hb⟩ := hinv.balance_ok
    have k3 := k2
    rw [nextYear_eq hb] at k3
    have k3 := Except.ok.inj k3
    rcases List.mem_or_eq_of_mem_set (List.mem_of_getElem? hs) with hm | rfl
    · exact ⟨s, hm, by rw [← k3], by rw [← k3], by rw [← k3],
        fun hrc => reachable_step hrc .nextYear k2⟩
    · refine ⟨r, hmem, by rw [← k3], by rw [← k3], by rw [← k3], fun hrc => ?_⟩
      exact reachable_step (reachable_step hrc (.add v (.num t)) hadd) .nextYear k2
  refine ⟨g', ?_, ⟨b2, by rw [b4, a3, h.len], ?_, ?_, ?_, ?_, ?_⟩, ?_, ?_⟩
  · unfold forecastYear
    rw [List.foldlM_cons, ea, ok_bind]
    exact b1
  · have h1 : contributionRoom g1 r0 = room := by rw [a1.room hm0, a2, h.room]
    have h2 : r0.acct.txns = [] := h.idle r0 (List.mem_of_getElem? hr0)
    rw [b3, h1, h2, a1.sync r0 hm0]
    simp [net, Dict.vals]
    ring
  · intro s hs; obtain ⟨u, hu, k1, -⟩ := hback s hs; exact k1
  · intro s hs; obtain ⟨u, hu, -, k1, -⟩ := hback s hs; rw [k1]; exact h.timing u hu
  · intro s hs; obtain ⟨u, hu, -, -, k1, -⟩ := hback s hs; rw [k1]; exact h.growth u hu
  · intro s hs; obtain ⟨u, hu, -, -, -, k1⟩ := hback s hs; exact k1 (h.reach u hu)
  · exact b7 1 r1 hget1
  · intro z hz
    rw [b6 1 z hz, a4]

/-- **C112 (the entitlement can be exceeded without limit).** Two linked TFSAs; every year the second
contributes exactly what `max_inflows()` says, and the first comes up first when the forecast goes on to
the next year. For every number of years this goes through; the room is never used up (after `n` years
it is the first room and all accruals), and each year all of it is contributed again. In total this is
more than the first room plus all the accruals up to the last of these years, if that is not nothing
and there are two years or more. -/
theorem C112_lifetime_refuted (e : TfsaEnv K) (acc : ℤ → K) (hacc : ∀ y, accrual e y = .ok (acc y))
    (hpos : ∀ y, 0 ≤ acc y) (y0 : ℤ) (b0 b1 : K) (growth : ℤ → K → K) (hG : ∀ y, IsGrowth (growth y))
    (t : K) (ht : 0 ≤ t ∧ t ≤ 1) (room0 : K) (h0 : 0 ≤ room0) (c : ℤ) (n : ℕ) :
    ∃ v : ℕ → K,
      (∀ k ≤ n, ∃ g, forecastYears (tfsaNext e) 2 y0 (pair y0 b0 b1 growth t room0 c)
          (secondOnly t v k) = .ok g ∧
        g.room = room0 + ∑ j ∈ Finset.range k, acc (y0 + j + 1) ∧ GroupAllows g 1 (v k) ∧
        v k = g.room ∧ ∀ j < k, recordOf g 1 (y0 + j) = [(t, v j)]) ∧
      (0 < room0 → 2 ≤ n → room0 + ∑ j ∈ Finset.range (n - 1), acc (y0 + j + 1)
        < ∑ k ∈ Finset.range n, v k) := by
  set v : ℕ → K := fun k => room0 + ∑ j ∈ Finset.range k, acc (y0 + j + 1) with hv
  have hv0 : ∀ k, 0 ≤ v k := fun k => add_nonneg h0 (Finset.sum_nonneg fun j _ => hpos _)
  have key : ∀ k, ∃ g, forecastYears (tfsaNext e) 2 y0 (pair y0 b0 b1 growth t room0 c)
      (secondOnly t v k) = .ok g ∧ PairAt growth t (v k) (y0 + k) g ∧
      ∀ j < k, recordOf g 1 (y0 + j) = [(t, v j)] := by
    intro k
    induction k with
    | zero =>
      refine ⟨_, rfl, ⟨?_, ?_, ?_, ?_, ?_, ?_, ?_⟩, by simp⟩
      · have := instep_new y0 [Account.init y0 b0 growth [(t, 1)], Account.init y0 b1 growth [(t, 1)]]
          (by simp [Account.init]) (by
            intro a ha
            simp at ha
            rcases ha with rfl | rfl <;> exact inv_init _ _ _ _) room0 c
        simpa [pair] using this
      · simp [pair, newGroup]
      · simp [pair, newGroup, hv]
      all_goals
        intro s hs
        simp only [pair, newGroup, List.map_cons, List.map_nil, List.mem_cons, List.not_mem_nil,
          or_false] at hs
        rcases hs with rfl | rfl
      · rfl
      · rfl
      · rfl
      · rfl
      · rfl
      · rfl
      · exact ⟨_, _, _, _, [], rfl⟩
      · exact ⟨_, _, _, _, [], rfl⟩
    | succ k ih =>
      obtain ⟨g, g1, g2, g3⟩ := ih
      obtain ⟨g', k1, k2, k3, k4⟩ := pair_year hacc ht g2 (v k)
      refine ⟨g', ?_, ?_, ?_⟩
      · have hs : secondOnly t v (k + 1) = secondOnly t v k ++ [⟨[(1, v k, .num t)], [0, 1]⟩] := by
          simp [secondOnly, List.range_succ]
        have hl : (secondOnly t v k).length = k := by simp [secondOnly]
        rw [hs, years_append _ _ _ _ _ _ _ g1, hl]
        unfold forecastYears
        rw [k1, ok_bind]
        rfl
      · have h1 : v k + acc (y0 + k + 1) = v (k + 1) := by
          simp only [hv]
          rw [Finset.sum_range_succ]
          ring
        have h2 : y0 + (k : ℤ) + 1 = y0 + ((k + 1 : ℕ) : ℤ) := by push_cast; ring
        rw [h1, h2] at k2
        exact k2
      · intro j hj
        rcases Nat.lt_succ_iff_lt_or_eq.1 hj with hlt | rfl
        · rw [k4 _ (by omega)]
          exact g3 j hlt
        · exact k3
  refine ⟨v, fun k _ => ?_, fun hr hn => ?_⟩
  · obtain ⟨g, g1, g2, g3⟩ := key k
    exact ⟨g, g1, g2.room, pair_allows hG ht (hv0 k) g2, g2.room.symm, g3⟩
  · obtain ⟨m, rfl⟩ : ∃ m, n = m + 2 := ⟨n - 2, by omega⟩
    have e1 : m + 2 - 1 = m + 1 := by omega
    rw [e1]
    have h1 : room0 ≤ ∑ k ∈ Finset.range (m + 1), v k := by
      have := Finset.single_le_sum (f := v) (fun i _ => hv0 i) (Finset.mem_range.2 (Nat.succ_pos m))
      have hz : v 0 = room0 := by simp [hv]
      rwa [hz] at this
    have h2 : v (m + 1) = room0 + ∑ j ∈ Finset.range (m + 1), acc (y0 + j + 1) := rfl
    have h3 : ∑ k ∈ Finset.range (m + 2), v k = ∑ k ∈ Finset.range (m + 1), v k + v (m + 1) :=
      Finset.sum_range_succ _ _
    rw [h3, h2]
    linarith

/-! ### cases -/

/-- The shipped accruals are defined in every year. -/
theorem shipped_accruals (born y : ℤ) : ∃ a : ℚ, accrual (shipped born) y = .ok a ∧ 0 ≤ a := by
  have hb : baseAccrual (shipped born) = .ok 5000 := by
    have : ∀ b b' : ℤ, baseAccrual (shipped b) = baseAccrual (shipped b') := fun _ _ => rfl
    rw [this born 0]
    decide +kernel
  have hy : baseYear (shipped born) = .ok 2009 := by
    have : ∀ b b' : ℤ, baseYear (shipped b) = baseYear (shipped b') := fun _ _ => rfl
    rw [this born 0]
    decide +kernel
  have hr : roundTo (shipped born).const.unit (5000 * 1) = .ok 5000 := by
    show roundTo (500 : ℚ) (5000 * 1) = .ok 5000
    decide +kernel
  unfold accrual
  have h1 : (shipped born).ownerAge (y + 1) = .ok (y + 1 - born) := rfl
  rw [h1, ok_bind]
  split_ifs
  · exact ⟨0, rfl, le_rfl⟩
  · cases hg : Dict.get? (shipped born).const.annual y with
    | some v =>
      refine ⟨v, rfl, ?_⟩
      have hm := Dict.mem_of_get? hg
      have : ∀ kv ∈ (shipped 0).const.annual, (0 : ℚ) ≤ kv.2 := by decide +kernel
      exact this _ hm
    | none =>
      rw [hb, hy]
      simp only [ok_bind]
      have h2 : (shipped born).adj 2009 y = .ok 1 := rfl
      rw [h2, ok_bind, hr]
      exact ⟨5000, rfl, by norm_num⟩

/-- Two accounts, two years: 70 and 30 are contributed in 2013 and the second account comes up first,
10 in 2014 and the first does. -/
def exYears : List (Year ℚ) :=
  [⟨[(0, 70, .num (1/2)), (1, 30, .num (1/2))], [1, 0]⟩, ⟨[(1, 10, .str "start")], [0, 1]⟩]

def exTwo : List (Acct ℚ) :=
  [Account.init 2013 1000 (fun _ _ => 1) [(0, 1)], Account.init 2013 500 (fun _ _ => 1) [(0, 1)]]

/-- C112: 100 of room, 30 (not 100) deducted for 2013 and nothing for 2014; 5500 and 10000 accrue. -/
example : (forecastYears (tfsaNext (shipped 1980)) 2 2013 (newGroup exTwo 100 2013) exYears).map
      (fun g => (g.room, [0, 1].map fun k => (leader exYears k,
        net (recordOf g (leader exYears k) (2013 + k)))))
    = .ok (100 - 30 + 5500 + 10000, [(1, 30), (0, 0)]) := by decide +kernel

example : exTwo ≠ [] ∧ (∀ a ∈ exTwo, a.year = 2013) ∧ Orderly 2 exYears := by
  refine ⟨by simp [exTwo], by decide +kernel, ?_⟩
  intro h hh
  simp only [exYears, List.mem_cons, List.not_mem_nil, or_false] at hh
  rcases hh with rfl | rfl <;> decide

example : ∀ a ∈ exTwo, Reachable a := by
  intro a ha
  simp only [exTwo, List.mem_cons, List.not_mem_nil, or_false] at ha
  rcases ha with rfl | rfl <;> exact ⟨_, _, _, _, [], rfl⟩

/-- C112, `C112_tfsa_conserved`: here only the account that comes up first is used. -/
example : (forecastYears (tfsaNext (shipped 1980)) 2 2013 (newGroup exTwo 100 2013)
      [⟨[(1, 30, .num (1/2))], [1, 0]⟩, ⟨[(0, 10, .str "start")], [0, 1]⟩]).map
      (fun g => (g.room, [0, 1].map fun j => [0, 1].map fun k => net (recordOf g j (2013 + k))))
    = .ok (100 - 30 + 5500 - 10 + 10000, [[0, 10], [30, 0]]) := by decide +kernel

/-- C112, `C112_order_refuted`: the room of 2014 is 5530 or 5570. -/
example : [[0, 1], [1, 0]].map (fun order =>
      (forecastYear (tfsaNext (shipped 1980)) 2 2013 (newGroup exTwo 100 2013)
        ⟨[(0, 70, .num (1/2)), (1, 30, .num (1/2))], order⟩).map fun g => g.room)
    = [.ok 5530, .ok 5570] := by decide +kernel

/-- C112, `C112_lifetime_refuted`: with the shipped constants, somebody born in 1980 with 5000 of room
in 2018. In ten years the entitlement (5000 and 9 times 5000 more) is exceeded. -/
example : ∃ (v : ℕ → ℚ) (acc : ℤ → ℚ), (∀ y, accrual (shipped 1980) y = .ok (acc y)) ∧
    5000 + ∑ j ∈ Finset.range 9, acc (2018 + j + 1) < ∑ k ∈ Finset.range 10, v k := by
  choose acc h1 h2 using shipped_accruals 1980
  obtain ⟨v, -, hv⟩ := C112_lifetime_refuted (shipped 1980) acc h1 h2 2018 0 0 (fun _ _ => 1) growth_one
    (1 / 2) (by norm_num) 5000 (by norm_num) 2018 10
  exact ⟨v, acc, h1, hv (by norm_num) (by norm_num)⟩

/-- ... 5000 + 10000 + 15000 in the first three years. -/
example : (forecastYears (tfsaNext (shipped 1980)) 2 2018 (pair 2018 0 0 (fun _ _ => 1) (1/2) 5000 2018)
      (secondOnly (1/2) (fun k => 5000 * (k + 1)) 3)).map
      (fun g => (g.room, [0, 1, 2].map fun k => recordOf g 1 (2018 + k)))
    = .ok (20000, [[(1/2, 5000)], [(1/2, 10000)], [(1/2, 15000)]]) := by decide +kernel

end TFSA

/-! ### RRSPs -/

section RRSP

variable {K : Type} [Field K] [LinearOrder K] [IsStrictOrderedRing K]

/-- **C112.** The same for linked RRSPs, as long as the contributor is not past the conversion age:
only the contributions to the account that came up first are deducted (withdrawals never count). -/
theorem C112_rrsp_room (e : RrspEnv K) (income most : ℤ → K) (y0 : ℤ) (hist : List (Year K))
    (hage : ∀ y, y0 < y → y ≤ y0 + hist.length →
      ∃ n, e.contributorAge y = .ok n ∧ n ≤ e.const.conversionAge)
    (hinc : ∀ y, e.income y = .ok (income y))
    (hmost : ∀ y, extendScalar e.const.accrualMax e.adj y = .ok (most y))
    (as : List (Acct K)) (hne : as ≠ []) (hy : ∀ a ∈ as, a.year = y0)
    (hr : ∀ a ∈ as, Reachable a) (room0 : K) (c : ℤ)
    (ho : Orderly as.length hist) (fuel : ℕ) (hf : as.length ≤ fuel) (g : Grp K)
    (h : forecastYears (rrspNext e) fuel y0 (newGroup as room0 c) hist = .ok g) :
    (∀ s ∈ g.accts, s.acct.year = y0 + hist.length) ∧
    g.room + ∑ k ∈ Finset.range hist.length, paid (recordOf g (leader hist k) (y0 + k))
      = room0 + ∑ k ∈ Finset.range hist.length,
          min (e.const.rate * income (y0 + k)) (most (y0 + k + 1)) := by
  have hlen : (newGroup as room0 c).accts.length = as.length := by simp [newGroup]
  obtain ⟨h1, -, -, h4⟩ := room_years (flow := paid)
    (acc := fun y => min (e.const.rate * income (y - 1)) (most y)) hist
    (instep_new y0 as hy (fun a ha => (hr a ha).inv) room0 c)
    (by rw [hlen]; exact List.length_pos_of_ne_nil hne) (by rw [hlen]; exact ho)
    (by rw [hlen]; exact hf) (fun g r k1 k2 => by
      obtain ⟨m, hm, hle⟩ := hage (r.acct.year + 1) (by omega) (by omega)
      have hp := paid_filter r.acct.txns
      simp only [rrspNext, hm, ok_bind, not_lt.2 hle, if_false, hinc, hmost, inflows, posSum,
        gt_iff_lt, zero_add, hp]
      rw [mul_comm]
      simp) h
  refine ⟨h1.sync, ?_⟩
  simp only [add_sub_cancel_right] at h4
  exact h4

/-- C112: 9000 accrue each year; of the contributions of 2017 only the 30 of the account that comes up
first are deducted. -/
example : (forecastYears (rrspNext (shippedRrsp 1980)) 2 2017
      (newGroup [Account.init 2017 1000 (fun _ _ => 1) [(0, 1)],
        Account.init 2017 500 (fun _ _ => 1) [(0, 1)]] 100 2017)
      [⟨[(0, 70, .num (1/2)), (1, 30, .num (1/2)), (1, -20, .num 1)], [1, 0]⟩]).map (·.room)
    = .ok (100 - 30 + 9000) := by decide +kernel

end RRSP
end Forecaster.Registered
