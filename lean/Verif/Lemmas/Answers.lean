import Verif.Lemmas.OnTime
import Verif.Lemmas.Solvency
import Verif.Props.SubForecastAccount

/-! Helper lemmas for `Verif/Props/Completes.lean`: transfers of money that do not raise. -/

set_option linter.unusedSectionVars false

namespace Forecaster.SubForecast

open Forecaster Forecaster.Timing Forecaster.Account

variable {K : Type} [Field K] [LinearOrder K] [IsStrictOrderedRing K]
variable {P : Type} [DecidableEq P]
variable (ttv : Acct K → K → K → Except PyErr (Ext K)) (default : Dict K K)

theorem Inv.balanceAt {a : Acct K} (ha : Inv a) {t : K} (ht : 0 ≤ t ∧ t ≤ 1) :
    ∃ b, balanceAtTime a (.num t) none = .ok b := by
  obtain ⟨b, hb⟩ := ha.balance_ok
  exact ⟨_, balanceAtTime_eq ha hb ht none (by simp)⟩

/-- `time_to_balance` answers if `time_to_value` does for every balance of the year. -/
theorem timeToBalance_ok {a : Acct K} (ha : Inv a) {value : K}
    (httv : ∀ t b, 0 ≤ t → t ≤ 1 → balanceAtTime a (.num t) none = .ok b →
      ∃ r, ttv a b value = .ok r)
    {n : ℕ} {when : K} (h0 : 0 ≤ when) (h1 : when ≤ 1)
    (hn : ((Dict.keys a.txns).filter fun k => decide (k > when)).length < n) :
    ∃ r, timeToBalance ttv a value n when = .ok r := by
  induction n generalizing when with
  | zero => simp at hn
  | succ n ih =>
    rw [timeToBalance, whenConv_ok h0 h1, ok_bind]
    obtain ⟨b, hb⟩ := Inv.balanceAt ha ⟨h0, h1⟩
    obtain ⟨dt, hdt⟩ := httv when b h0 h1 hb
    rw [hb, ok_bind, hdt, ok_bind]
    cases hm : ((Dict.keys a.txns).filter fun k => decide (k > when)).min? with
    | none => exact ⟨_, rfl⟩
    | some nx =>
      simp only
      rw [List.min?_eq_some_iff] at hm
      have hnx := List.mem_filter.1 hm.1
      have hwn : when < nx := by simpa using hnx.2
      have hrng := ha.tx.rng nx hnx.1
      split_ifs with hlt
      · apply ih hrng.1 hrng.2
        have hsub : ((Dict.keys a.txns).filter fun k => decide (k > nx)).length
            < ((Dict.keys a.txns).filter fun k => decide (k > when)).length := by
          have : ((Dict.keys a.txns).filter fun k => decide (k > nx))
              = ((Dict.keys a.txns).filter fun k => decide (k > when)).filter
                  fun k => decide (k > nx) := by
            rw [List.filter_filter]
            apply List.filter_congr
            intro k _
            by_cases hk : k > nx
            · simp [hk, hwn.trans hk]
            · simp [hk]
          rw [this]
          apply List.length_filter_lt_length_iff_exists.2
          exact ⟨nx, hm.1, by simp⟩
        omega
      · exact ⟨_, rfl⟩

/-- One timing that is a date. -/
theorem fit_scalar {a : Acct K} (ha : Inv a) (hA : IsGrowth a.A) {t : K} (h0 : 0 < t)
    (h1 : t ≤ 1) : Fit a (some (.scalar (.num t))) none [(t, 1)] where
  inv := ha
  growth := hA
  resolves := by
    have hf : frequencyConv (.num 1) = .ok (some 1) := by decide +kernel
    simp [resolveTiming, falsy, h0.ne', Timing.init, initScalar, whenConv_ok h0.le h1, hf, Dict.set]
  good := ⟨⟨by simp [Dict.WF, Dict.keys], by simpa [Dict.keys] using ⟨h0.le, h1⟩⟩, by simp, by simp⟩
  dated := by simp

theorem maxOutflows_ok {L : Limits K} {a : Acct K} (ha : Inv a) (hA : IsGrowth a.A) {t : K}
    (h0 : 0 < t) (h1 : t ≤ 1) :
    ∃ m, maxOutflows L a { timing := some (.scalar (.num t)) } = .ok m := by
  have hf := fit_scalar ha hA h0 h1
  obtain ⟨nt, ref, h2, h3, -, h4, -⟩ := core hf
  exact ⟨_, ttb_eq h4 hf.resolves h2 hA h3⟩

/-- Taking `value` out of an account needs no `time_to_value`, or gets an answer. -/
def Easy (L : Limits K) (a : Acct K) (value : K) : Prop :=
  (∀ t b, 0 ≤ t → t ≤ 1 → balanceAtTime a (.num t) none = .ok b → ∃ r, ttv a b value = .ok r) ∨
    ∀ t m, 0 ≤ t → t ≤ 1 → maxOutflow L a (.num t) = .ok m → negExt m ≤ .fin value

/-- What is known of `accum` during the interpolation. -/
structure Gathered (L : Limits K) (a : Acct K) (keys : List K) (acc : Dict K (Ext K)) : Prop where
  rng : ∀ k ∈ Dict.keys acc, 0 ≤ k ∧ k ≤ 1
  has : ∀ k ∈ keys, k ∈ Dict.keys acc

theorem interpolate_ok {L : Limits K} {a : Acct K} (ha : Inv a) (hA : IsGrowth a.A) {value : K}
    (hE : ∀ t b, 0 ≤ t → t ≤ 1 → balanceAtTime a (.num t) none = .ok b →
      ∃ r, ttv a b value = .ok r)
    {keys : List K} {acc : Dict K (Ext K)} (hg : Gathered L a keys acc) {pr : K × K}
    (h1 : pr.1 ∈ keys) (h2 : pr.2 ∈ keys) :
    ∃ acc', interpolate ttv L a value acc pr = .ok acc' ∧ Gathered L a keys acc' := by
  obtain ⟨x, hx⟩ := Option.isSome_iff_exists.1 (Dict.get?_isSome.2 (hg.has _ h1))
  obtain ⟨y, hy⟩ := Option.isSome_iff_exists.1 (Dict.get?_isSome.2 (hg.has _ h2))
  have hlx : look acc pr.1 = .ok x := by unfold look; rw [hx]
  have hly : look acc pr.2 = .ok y := by unfold look; rw [hy]
  have r1 := hg.rng _ (hg.has _ h1)
  have r2 := hg.rng _ (hg.has _ h2)
  unfold interpolate
  rw [hlx, hly]
  simp only [ok_bind]
  split_ifs with hc
  · obtain ⟨T, hT⟩ := timeToBalance_ok ttv ha hE r1.1 r1.2
      (n := a.txns.length + 1) (Nat.lt_succ_of_le
        ((List.length_filter_le _ _).trans (by simp [Dict.keys])))
    rw [hT, ok_bind]
    cases T with
    | negInf => exact ⟨_, rfl, hg⟩
    | posInf => exact ⟨_, rfl, hg⟩
    | fin t =>
      simp only
      split_ifs with ht
      · have ht0 : 0 < t := lt_of_le_of_lt r1.1 ht.1
        have ht1 : t ≤ 1 := ht.2.le.trans r2.2
        obtain ⟨m, hm⟩ := maxOutflows_ok (L := L) ha hA ht0 ht1
        rw [hm, ok_bind]
        refine ⟨_, rfl, fun k hk => ?_, fun k hk => Dict.mem_keys_set.2 (.inr (hg.has k hk))⟩
        rcases Dict.mem_keys_set.1 hk with rfl | hk
        · exact ⟨ht0.le, ht1⟩
        · exact hg.rng k hk
      · exact ⟨_, rfl, hg⟩
  · exact ⟨_, rfl, hg⟩

theorem interpolate_idle {L : Limits K} {a : Acct K} {value : K} {acc : Dict K (Ext K)}
    (hE : ∀ kv ∈ acc, kv.2 ≤ .fin value) {pr : K × K} (h1 : pr.1 ∈ Dict.keys acc)
    (h2 : pr.2 ∈ Dict.keys acc) : interpolate ttv L a value acc pr = .ok acc := by
  obtain ⟨x, hx⟩ := Option.isSome_iff_exists.1 (Dict.get?_isSome.2 h1)
  obtain ⟨y, hy⟩ := Option.isSome_iff_exists.1 (Dict.get?_isSome.2 h2)
  have hlx : look acc pr.1 = .ok x := by unfold look; rw [hx]
  have hly : look acc pr.2 = .ok y := by unfold look; rw [hy]
  have bx := hE _ (Dict.mem_of_get? hx)
  have by' := hE _ (Dict.mem_of_get? hy)
  unfold interpolate
  rw [hlx, hly]
  simp only [ok_bind]
  rw [if_neg]
  rintro (⟨h, -⟩ | ⟨-, h⟩)
  · exact absurd h (not_lt.2 by')
  · exact absurd h (not_lt.2 bx)

theorem accumEntry_ok {L : Limits K} {a : Acct K} (ha : Inv a) {t : K} (ht : 0 ≤ t ∧ t ≤ 1) :
    ∃ m, maxOutflow L a (.num t) = .ok m ∧ accumEntry L a t = .ok (t, negExt m) := by
  obtain ⟨b, hb⟩ := Inv.balanceAt ha ht
  refine ⟨_, by unfold maxOutflow; rw [hb]; rfl, by unfold accumEntry maxOutflow; rw [hb]; rfl⟩

theorem entries_ok {L : Limits K} {a : Acct K} (ha : Inv a) {l : List K}
    (hl : ∀ t ∈ l, 0 ≤ t ∧ t ≤ 1) :
    ∃ acc, l.mapM (accumEntry L a) = .ok acc ∧ Dict.keys acc = l ∧
      ∀ kv ∈ acc, ∃ m, maxOutflow L a (.num kv.1) = .ok m ∧ kv.2 = negExt m := by
  induction l with
  | nil => exact ⟨[], rfl, rfl, by simp⟩
  | cons t l ih =>
    obtain ⟨m, h1, h2⟩ := accumEntry_ok (L := L) ha (hl t (by simp))
    obtain ⟨acc, h3, h4, h5⟩ := ih fun t ht => hl t (by simp [ht])
    refine ⟨(t, negExt m) :: acc, ?_, by simp [Dict.keys, ← h4], ?_⟩
    · rw [List.mapM_cons, h2, ok_bind, h3, ok_bind]; rfl
    · intro kv hkv
      rcases List.mem_cons.1 hkv with rfl | hkv
      · exact ⟨m, h1, rfl⟩
      · exact h5 kv hkv

theorem accumAccount_ok {L : Limits K} {a : Acct K} (ha : Inv a) (hA : IsGrowth a.A)
    {when value : K} (hE : Easy ttv L a value) (h0 : 0 ≤ when) (h1 : when ≤ 1) :
    ∃ acc, accumAccount ttv L a when value = .ok acc ∧ ∀ k ∈ Dict.keys acc, 0 ≤ k ∧ k ≤ 1 := by
  have hl : ∀ t ∈ (materialTimes a.txns when).dedup, 0 ≤ t ∧ t ≤ 1 := by
    intro t ht
    rw [List.mem_dedup] at ht
    simp only [materialTimes, List.mem_filter, List.mem_cons] at ht
    rcases ht.1 with rfl | ht
    · exact ⟨h0, h1⟩
    · exact ha.tx.rng t ht
  obtain ⟨acc, h2, h3, h4⟩ := entries_ok (L := L) ha hl
  unfold accumAccount
  rw [h2, ok_bind]
  simp only
  set times := (Dict.keys acc).insertionSort (· ≤ ·) with htimes
  have hmem : ∀ pr ∈ times.zip times.tail, pr.1 ∈ Dict.keys acc ∧ pr.2 ∈ Dict.keys acc := by
    intro pr hpr
    have hp : ∀ k, k ∈ times ↔ k ∈ Dict.keys acc := fun k =>
      (List.perm_insertionSort (· ≤ ·) (Dict.keys acc)).mem_iff
    exact ⟨(hp _).1 (List.of_mem_zip hpr).1,
      (hp _).1 (List.mem_of_mem_tail (List.of_mem_zip hpr).2)⟩
  generalize times.zip times.tail = pairs at hmem
  have hr0 : ∀ k ∈ Dict.keys acc, 0 ≤ k ∧ k ≤ 1 := by rw [h3]; exact hl
  rcases hE with hE | hE
  · have key : ∀ (l : List (K × K)), (∀ pr ∈ l, pr.1 ∈ Dict.keys acc ∧ pr.2 ∈ Dict.keys acc) →
        ∀ b, Gathered L a (Dict.keys acc) b →
        ∃ r, l.foldlM (interpolate ttv L a value) b = .ok r ∧ Gathered L a (Dict.keys acc) r := by
      intro l
      induction l with
      | nil => intro _ b hb; exact ⟨b, rfl, hb⟩
      | cons pr l ih =>
        intro hl b hb
        obtain ⟨b', e1, e2⟩ := interpolate_ok ttv ha hA hE hb (hl pr (by simp)).1
          (hl pr (by simp)).2
        obtain ⟨r, e3, e4⟩ := ih (fun p hp => hl p (by simp [hp])) b' e2
        exact ⟨r, by rw [List.foldlM_cons, e1, ok_bind, e3], e4⟩
    obtain ⟨r, e1, e2⟩ := key pairs hmem acc ⟨hr0, fun _ h => h⟩
    exact ⟨r, e1, e2.rng⟩
  · have hle : ∀ kv ∈ acc, kv.2 ≤ .fin value := by
      intro kv hkv
      obtain ⟨m, e1, e2⟩ := h4 kv hkv
      have := hr0 kv.1 (Dict.mem_keys_of_mem hkv)
      rw [e2]; exact hE kv.1 m this.1 this.2 e1
    have key : ∀ (l : List (K × K)), (∀ pr ∈ l, pr.1 ∈ Dict.keys acc ∧ pr.2 ∈ Dict.keys acc) →
        l.foldlM (interpolate ttv L a value) acc = .ok acc := by
      intro l
      induction l with
      | nil => intro _; rfl
      | cons pr l ih =>
        intro hl
        rw [List.foldlM_cons, interpolate_idle ttv hle (hl pr (by simp)).1 (hl pr (by simp)).2,
          ok_bind]
        exact ih fun p hp => hl p (by simp [hp])
    exact ⟨acc, key pairs hmem, hr0⟩

/-- An account can be asked when to take `value` out. -/
theorem shift_acct_ok {L : Limits K} {a : Acct K} (ha : Inv a) (hA : IsGrowth a.A)
    {when value : K} (hE : Easy ttv L a value) (h0 : 0 ≤ when) (h1 : when ≤ 1) :
    ∃ w, shiftWhen ttv (.acct L a) value when = .ok w ∧ 0 ≤ w ∧ w ≤ 1 := by
  obtain ⟨acc, e1, e2⟩ := accumAccount_ok ttv ha hA hE h0 h1
  refine ⟨earliest acc value when, ?_, earliest_within ⟨h0, h1⟩ e2⟩
  unfold shiftWhen
  simp only [e1, ok_bind]

theorem leg_ok {s : St P K} (o : Option P) {w : K} (h0 : 0 ≤ w) (h1 : w ≤ 1) (x : K) :
    ∃ s', leg s o w x = .ok s' := by
  cases o with
  | none => exact ⟨_, rfl⟩
  | some p =>
    have : ∃ q, poolAdd (s.pools p) w x = .ok q := by
      cases hp : s.pools p with
      | dict f d =>
        unfold poolAdd; simp only; cases Dict.get? d w <;> exact ⟨_, rfl⟩
      | acct L a =>
        unfold poolAdd
        simp only [contains, whenConv_ok h0 h1, ok_bind]
        obtain ⟨a', ha'⟩ := setItem_ok a h0 h1
          (if decide (w ∈ Dict.keys a.txns) = true then Dict.val a.txns w + x else x)
        rw [ha']; exact ⟨_, rfl⟩
    obtain ⟨q, hq⟩ := this
    exact ⟨_, by simp only [leg, hq, ok_bind]; rfl⟩

/-- A transaction between dated pools goes through if its source can be asked. -/
theorem add1_ok {s : St P K} {v w0 : K} {src dst : Option P}
    (hd : ∃ w, dateFor ttv s v w0 src false = .ok w ∧ 0 ≤ w ∧ w ≤ 1) :
    ∃ s', addTransaction1 ttv s v w0 src dst false = (s', none) := by
  obtain ⟨w, e1, h0, h1⟩ := hd
  obtain ⟨s1, e2⟩ := leg_ok (s := s) src h0 h1 (-v)
  obtain ⟨s2, e3⟩ := leg_ok (s := s1) dst h0 h1 v
  exact ⟨s2, by simp only [addTransaction1, e1, e2, e3]⟩

theorem date_dict_ok {s : St P K} (ho : OnTime s) {p : P} {f : Bool} {d : Dict K K}
    (hp : s.pools p = .dict f d) {v w0 : K} (hw : 0 ≤ w0 ∧ w0 ≤ 1) :
    ∃ w, dateFor ttv s v w0 (some p) false = .ok w ∧ 0 ≤ w ∧ w ≤ 1 := by
  refine ⟨earliest (accumDict d w0) v w0, by simp [dateFor, hp, shiftWhen], ?_⟩
  apply earliest_within hw
  intro k hk
  simp only [accumDict, Dict.keys, List.map_map, List.mem_map, Function.comp_apply] at hk
  obtain ⟨t, ht, rfl⟩ := hk
  simp only [materialTimes, List.mem_filter, List.mem_cons] at ht
  rcases ht.1 with rfl | ht
  · exact hw
  · exact ho p f d hp t ht

/-- A transfer between the cash at hand and account `p`, on one date. -/
theorem one_ok {s : St P K} (hs : Good s) (ho : OnTime s) {available p : P} {f : Bool} {d : Dict K K}
    (hav : s.pools available = .dict f d) {L : Limits K} {a : Acct K} (hp : s.pools p = .acct L a)
    (hA : IsGrowth a.A) {x w0 : K} (hw : 0 ≤ w0 ∧ w0 ≤ 1) (hE : x < 0 → Easy ttv L a (-x)) :
    ∃ s', SubForecast.addTransaction ttv default s
      { value := x, timing := some (.scalar (.num w0)), src := some available, dst := some p,
        strict := false } = (s', none) := by
  have hia : Inv a := by have := hs.pools p; rw [hp] at this; exact this
  have ht1 : Dict.total [(w0, (1 : K))] = 1 := by simp [Dict.total_cons]
  have main : ∀ v src dst, (∃ w, dateFor ttv s v w0 src false = .ok w ∧ 0 ≤ w ∧ w ≤ 1) →
      ∃ s', forEach (fun (s : St P K) (kv : K × K) =>
        if Dict.total [(w0, (1 : K))] = 0 then (s, some .zeroDivisionError)
        else addTransaction1 ttv s (v * (kv.2 / Dict.total [(w0, (1 : K))])) kv.1 src dst false)
        s [(w0, 1)] = (s', none) := by
    intro v src dst hd
    obtain ⟨s', e⟩ := add1_ok ttv (dst := dst) hd
    refine ⟨s', ?_⟩
    unfold forEach
    simp only [ht1, one_ne_zero, if_false, div_one, mul_one, e]
    unfold forEach
    rfl
  unfold SubForecast.addTransaction
  rw [resolve_scalar default hw.1 hw.2]
  by_cases hx : x < 0
  · simp only [orient, if_pos hx]
    refine main (-x) (some p) (some available) ?_
    unfold dateFor
    simp only [Bool.false_eq_true, if_false, hp]
    exact shift_acct_ok ttv hia hA (hE hx) hw.1 hw.2
  · simp only [orient, if_neg hx]
    exact main x (some available) (some p) (date_dict_ok ttv ho hav hw)

/-! ### Plans -/

/-- `time_to_value` answers for positive amounts. -/
def Tells : Prop := ∀ (a : Acct K) b v, IsGrowth a.A → 0 < b → 0 < v → ∃ r, ttv a b v = .ok r

/-- The plan `d` can be carried out on account `a`: it only pays in; or it only takes out, and
nothing can be taken out, or nothing was ever paid in and there is nothing to take, or there is
enough. -/
def Payable (L : Limits K) (a : Acct K) (d : Dict K K) : Prop :=
  (∀ e ∈ d, 0 ≤ e.2) ∨ ((∀ e ∈ d, e.2 ≤ 0) ∧ (.fin 0 ≤ L.maxOut ∨
    (Signed (-1) a.txns ∧ ∃ b, balance a = .ok b ∧ (b ≤ 0 ∨ (Kindly 1 a ∧
      0 ≤ b * a.A 1 + grown a.A a.txns 1 + (d.map fun e => e.2 * a.A (1 - e.1)).sum)))))

theorem room_nonpos {L : Limits K} {a : Acct K} {t : K} {m : Ext K} {v : K} (hv : 0 ≤ v)
    (h : maxOutflow L a (.num t) = .ok m)
    (hb : .fin 0 ≤ L.maxOut ∨ ∀ b, balanceAtTime a (.num t) none = .ok b → b ≤ 0) :
    negExt m ≤ .fin v := by
  have hm : Ext.fin 0 ≤ m := by
    unfold maxOutflow at h
    cases hx : balanceAtTime a (.num t) none with
    | error e => rw [hx] at h; simp at h
    | ok b =>
      rw [hx, ok_bind] at h
      cases h
      rcases hb with hb | hb
      · exact hb.trans (le_max_right _ _)
      · have := hb b hx
        refine le_trans ?_ (le_max_left _ _)
        exact le_min (by rw [Ext.fin_le_fin]; linarith) (le_refl _)
  cases m with
  | negInf => exact absurd hm (by simp)
  | posInf => simp [negExt]
  | fin x =>
    rw [Ext.fin_le_fin] at hm
    simp only [negExt, Ext.fin_le_fin]
    linarith

/-- The next amount of a plan that can be carried out can be taken. -/
theorem Payable.easy {L : Limits K} {a : Acct K} (ha : Inv a) (hA : IsGrowth a.A)
    (ht : Tells ttv) {w0 x : K} {d : Dict K K} (hd : Within ((w0, x) :: d))
    (h : Payable L a ((w0, x) :: d)) (hx : x < 0) : Easy ttv L a (-x) := by
  rcases h with h | ⟨hs, h | ⟨hsg, b, hb, h⟩⟩
  · exact absurd (h (w0, x) (by simp)) (not_le.2 hx)
  · exact .inr fun t m _ _ hm => room_nonpos (by linarith) hm (.inl h)
  · have hbal : ∀ t, 0 ≤ t → t ≤ 1 → ∀ c, balanceAtTime a (.num t) none = .ok c →
        c = b * a.A t + grown a.A a.txns t := by
      intro t h0 h1 c hc
      rw [balanceAtTime_eq ha hb ⟨h0, h1⟩ none (by simp)] at hc
      cases hc; simp
    have hneg : ∀ t, grown a.A a.txns t ≤ 0 := by
      intro t
      have := grown_signed (σ := (-1 : K)) hA (fun e he => hsg.mem ha.tx.wf he) t
      linarith
    rcases h with h | ⟨-, h⟩
    · refine .inr fun t m h0 h1 hm => room_nonpos (by linarith) hm (.inr fun c hc => ?_)
      rw [hbal t h0 h1 c hc]
      have := mul_nonpos_of_nonpos_of_nonneg h (hA.pos t).le
      linarith [hneg t]
    · refine .inl fun t c h0 h1 hc => ht a c (-x) hA ?_ (by linarith)
      rw [hbal t h0 h1 c hc]
      -- the balance at the end of the year is positive
      have hrest : (d.map fun e => e.2 * a.A (1 - e.1)).sum ≤ 0 := by
        have hs' : ∀ e ∈ d, e.2 ≤ 0 := fun e he => hs e (by simp [he])
        clear * - hs' hA
        induction d with
        | nil => simp
        | cons e d ih =>
          rw [List.map_cons, List.sum_cons]
          have := mul_nonpos_of_nonpos_of_nonneg (hs' e (by simp)) (hA.pos (1 - e.1)).le
          have := ih fun e he => hs' e (by simp [he])
          linarith
      rw [List.map_cons, List.sum_cons] at h
      have hxA : x * a.A (1 - w0) < 0 := mul_neg_of_neg_of_pos hx (hA.pos _)
      have hend : 0 < b * a.A 1 + grown a.A a.txns 1 := by linarith
      have hl := grown_later (σ := (-1 : K)) hA (fun e he => hsg.mem ha.tx.wf he) h1
      have e1 : b * a.A 1 = b * a.A t * a.A (1 - t) := by
        rw [mul_assoc, ← hA.add]; congr 2; ring
      have hp := hA.pos (1 - t)
      by_contra hc
      have := mul_nonpos_of_nonpos_of_nonneg (not_lt.1 hc) hp.le
      rw [e1] at hend
      nlinarith

/-- One transaction with account `p`. -/
theorem one_moved {s s' : St P K} (hs : Good s) {available p : P} (hp : p ≠ available)
    {L : Limits K} {a : Acct K} (ha : s.pools p = .acct L a) {x w0 : K}
    (h : SubForecast.addTransaction ttv default s
      { value := x, timing := some (.scalar (.num w0)), src := some available, dst := some p,
        strict := false } = (s', none)) :
    ∃ a', s'.pools p = .acct L a' ∧ { a' with txns := [] } = { a with txns := [] } ∧ Good s' ∧
      (x ≤ 0 → Signed (-1) a.txns → Signed (-1) a'.txns) := by
  obtain ⟨h0, h1, v, src', dst', hor, hadd⟩ := request_one ttv default h
  obtain ⟨w, -, -, hamt, -, -, -, hg, hkind⟩ := add1_effect ttv hs hadd
  have hk' := hkind p
  cases hq : s'.pools p with
  | dict f d => rw [ha, hq] at hk'; exact absurd hk' (by simp [SameKind])
  | acct L' a' =>
    rw [ha, hq] at hk'
    obtain ⟨rfl, hsame⟩ := hk'
    have hv : ∀ t, Dict.val a'.txns t = Dict.val a.txns t + if w = t then x else 0 := by
      intro t
      have := hamt p t
      unfold amount at this
      rw [ha, hq] at this
      simp only [Pool.txns] at this
      rw [this]
      have hne : (some available : Option P) ≠ some p := fun e => hp (Option.some.inj e).symm
      rcases hor with ⟨-, rfl, rfl, rfl⟩ | ⟨-, rfl, rfl, rfl⟩ <;>
        simp only [ind, hne, if_true, if_false] <;> congr 2 <;> ring
    exact ⟨a', rfl, hsame.symm, hg, fun hx hs1 => hs1.upd (by linarith) hv⟩

/-- After the first amount, the rest of the plan can be carried out. -/
theorem Payable.rest {s s' : St P K} (hs : Good s) {available p : P} (hp : p ≠ available)
    {L : Limits K} {a : Acct K} (ha : s.pools p = .acct L a) (hA : IsGrowth a.A) {w0 x : K}
    {d : Dict K K} (hpay : Payable L a ((w0, x) :: d))
    (h : SubForecast.addTransaction ttv default s
      { value := x, timing := some (.scalar (.num w0)), src := some available, dst := some p,
        strict := false } = (s', none)) :
    ∃ a', s'.pools p = .acct L a' ∧ { a' with txns := [] } = { a with txns := [] } ∧ Good s' ∧
      Payable L a' d := by
  obtain ⟨a', e1, e2, e3, e4⟩ := one_moved ttv default hs hp ha h
  refine ⟨a', e1, e2, e3, ?_⟩
  rcases hpay with hd | ⟨hd, hd'⟩
  · exact .inl fun e he => hd e (by simp [he])
  · refine .inr ⟨fun e he => hd e (by simp [he]), ?_⟩
    rcases hd' with hm | ⟨hsg, b, hb, hd'⟩
    · exact .inl hm
    · obtain ⟨eA, -, -, -, -, eb, -⟩ := same_A e2
      have hx : x ≤ 0 := hd (w0, x) (by simp)
      refine .inr ⟨e4 hx hsg, b, eb.trans hb, ?_⟩
      rcases hd' with hb0 | ⟨hk, hd'⟩
      · exact .inl hb0
      · obtain ⟨a'', f1, f2, -⟩ := one_took ttv default (σ := 1) hs hp ha hA h
        rw [e1] at f1
        obtain rfl : a' = a'' := by injection f1
        obtain ⟨-, t2⟩ := f2.drain hk hsg fun e he => by
          rw [List.mem_singleton] at he
          subst he
          simpa using hx
        refine .inr ⟨hk.congr e2, ?_⟩
        rw [eA]
        simp only [List.map_cons, List.map_nil, List.sum_cons, List.sum_nil, add_zero, one_mul]
          at t2 hd'
        linarith

/-- A series of transfers that can be carried out goes through. -/
theorem series_ok {txs : Dict K K} {s : St P K} (hs : Good s) (ho : OnTime s) {available p : P}
    (hne : p ≠ available) (hav : ∃ f dv, s.pools available = .dict f dv)
    {L : Limits K} {a : Acct K} (hp : s.pools p = .acct L a) (hA : IsGrowth a.A) (ht : Tells ttv)
    (hw : Within txs) (hpay : Payable L a txs) :
    ∃ s', SubForecast.addTransactions ttv default s txs (some available) (some p) false
      = (s', none) := by
  unfold SubForecast.addTransactions
  induction txs generalizing s a with
  | nil => exact ⟨s, rfl⟩
  | cons kv l ih =>
    have hia : Inv a := by have := hs.pools p; rw [hp] at this; exact this
    obtain ⟨f, dv, hav⟩ := hav
    have hkv := hw kv.1 (by simp [Dict.keys])
    obtain ⟨s1, h1⟩ := one_ok ttv default hs ho hav hp hA hkv
      (hpay.easy ttv hia hA ht hw)
    obtain ⟨a1, e1, e2, e3, e4⟩ := hpay.rest ttv default hs hne hp hA h1
    have hk := CashFlow.kinds_legs (legs_addTransaction ttv default s
      { value := kv.2, timing := some (.scalar (.num kv.1)), src := some available, dst := some p,
        strict := false })
    rw [h1] at hk
    have hav1 : ∃ f dv, s1.pools available = .dict f dv := by
      have := hk available
      simp only [hav] at this
      cases hq : s1.pools available with
      | dict f d => exact ⟨f, d, rfl⟩
      | acct L a => rw [hq] at this; simp [SameKind] at this
    have ho1 := add_onTime ttv default ho (fun t ht => by
      obtain ⟨rfl, h0, h1⟩ := CashFlow.scalar_resolved default ht
      intro k hk
      simp only [Dict.keys, List.map_cons, List.map_nil, List.mem_singleton] at hk
      subst hk
      exact ⟨h0, h1⟩) h1
    obtain ⟨s2, h2⟩ := ih e3 ho1 hav1 e1 (by rw [(same_A e2).1]; exact hA)
      (fun k hk => hw k (by
        simp only [Dict.keys, List.map_cons, List.mem_cons]; exact .inr hk)) e4
    exact ⟨s2, by unfold forEach; simp only [h1, h2]⟩

end Forecaster.SubForecast

namespace Forecaster.CashFlow

open Forecaster Forecaster.Timing Forecaster.Account Forecaster.SubForecast

variable {K : Type} [Field K] [LinearOrder K] [IsStrictOrderedRing K]
variable {P : Type} [DecidableEq P]
variable (ttv : Acct K → K → K → Except PyErr (Ext K)) (default : Dict K K)

/-- What can be carried out on every account of a plan. -/
def AllPayable (s : St P K) (txs : Dict P (Dict K K)) : Prop :=
  ∀ e ∈ txs, Within e.2 ∧ ∃ L a, s.pools e.1 = .acct L a ∧ IsGrowth a.A ∧ Payable L a e.2

/-- The pool of money at hand stays one. -/
theorem dict_legs {s s' : St P K} (h : Legs s s') {p : P} (hp : ∃ f d, s.pools p = .dict f d) :
    ∃ f d, s'.pools p = .dict f d := by
  obtain ⟨f, d, hp⟩ := hp
  have := kinds_legs h p
  rw [hp] at this
  cases hq : s'.pools p with
  | dict f d => exact ⟨f, d, rfl⟩
  | acct L a => rw [hq] at this; simp [SameKind] at this

/-- One account of a plan, then the rest. -/
theorem series_step {s : St P K} (hs : Good s) (ho : OnTime s) {available : P}
    (hav : ∃ f d, s.pools available = .dict f d) (ht : Tells ttv) {e : P × Dict K K}
    {txs : Dict P (Dict K K)} (hwf : Dict.WF (e :: txs)) (hp : AllPayable s (e :: txs)) :
    ∃ s1, SubForecast.addTransactions ttv default s e.2 (some available) (some e.1) false
      = (s1, none) ∧ Good s1 ∧ OnTime s1 ∧ (∃ f d, s1.pools available = .dict f d) ∧
      (∀ p, p ≠ available → p ≠ e.1 → s1.pools p = s.pools p) ∧ AllPayable s1 txs := by
  obtain ⟨hw, L, a, e1, e2, e3⟩ := hp e (by simp)
  have hne : e.1 ≠ available := by
    obtain ⟨f, d, h⟩ := hav
    rintro h'
    rw [h', h] at e1; cases e1
  obtain ⟨s1, h1⟩ := series_ok ttv default hs ho hne hav e1 e2 ht hw e3
  have hl := legs_series ttv default s e.2 (some available) (some e.1) false
  rw [h1] at hl
  have hframe : ∀ p, p ≠ available → p ≠ e.1 → s1.pools p = s.pools p := by
    intro p h2 h3
    have := series_frame ttv default e.2 (src := some available) (dst := some e.1) false s
      (p := p) (fun c => h2 (Option.some.inj c).symm) (fun c => h3 (Option.some.inj c).symm)
    rw [h1] at this; exact this
  refine ⟨s1, h1, (hl.inv hs).1, series_onTime ttv default ho h1, dict_legs hl hav, hframe, ?_⟩
  intro e' he'
  obtain ⟨w', L', a', f1, f2, f3⟩ := hp e' (List.mem_cons_of_mem _ he')
  refine ⟨w', L', a', ?_, f2, f3⟩
  rw [hframe e'.1 ?_ ?_]
  · exact f1
  · obtain ⟨f, d, h⟩ := hav
    intro h'
    rw [h', h] at f1; cases f1
  · intro h'
    exact (Dict.wf_cons.1 hwf).1 (h' ▸ Dict.mem_keys_of_mem he')

/-- A plan that can be carried out is. -/
theorem moveAll_ok {txs : Dict P (Dict K K)} (hwf : Dict.WF txs) {s : St P K} (hs : Good s)
    (ho : OnTime s) {available : P} (hav : ∃ f d, s.pools available = .dict f d) (ht : Tells ttv)
    (hp : AllPayable s txs) : ∃ s', moveAll ttv default available s txs = (s', none) := by
  unfold moveAll
  induction txs generalizing s with
  | nil => exact ⟨s, rfl⟩
  | cons e l ih =>
    obtain ⟨s1, h1, h2, h3, h4, -, h6⟩ := series_step ttv default hs ho hav ht hwf hp
    obtain ⟨s2, h7⟩ := ih (Dict.wf_cons.1 hwf).2 h2 h3 h4 h6
    exact ⟨s2, by unfold forEach; simp only [h1, h7]⟩

/-- Any transactions can be rescaled. -/
theorem rescale_ok {d : Dict K K} (hd : Dict.WF d) (x : K) :
    ∃ t, transactionsFromArg (.dict d) x = .ok t ∧ ∀ k ∈ Dict.keys t, k ∈ Dict.keys d := by
  obtain ⟨r, h1, -, h3, h4, h5, h6, h7, h8⟩ := C02_timing_of_dict d hd (.num 1)
  have htot : ¬ (Dict.total r = 0 ∧ r ≠ []) := by
    rintro ⟨h0, hne⟩
    have hz : ∀ a ∈ r, a.2 = 0 := by
      intro a ha
      have : ∀ (l : Dict K K), (∀ a ∈ l, 0 ≤ a.2) → Dict.total l = 0 → ∀ a ∈ l, a.2 = 0 := by
        intro l
        induction l with
        | nil => simp
        | cons e l ih =>
          intro hp ht a ha
          rw [Dict.total_cons] at ht
          have p1 := hp e (by simp)
          have p2 := Dict.total_nonneg (d := l) fun a ha => hp a (by simp [ha])
          rcases List.mem_cons.1 ha with rfl | ha
          · linarith
          · exact ih (fun a ha => hp a (by simp [ha])) (by linarith) a ha
      exact this r h3 h0 a ha
    obtain ⟨a, ha⟩ := List.exists_mem_of_ne_nil r hne
    by_cases c1 : ∀ a ∈ d, a.2 = 0
    · have := h5 c1
      have hz' := hz a ha
      rw [this] at ha
      obtain ⟨e, -, rfl⟩ := List.mem_map.1 ha
      simp at hz'
    · push Not at c1
      by_cases c2 : ∀ a ∈ d, 0 ≤ a.2
      · have := h6 c2 c1
        obtain ⟨e, he, hne'⟩ := c1
        exact hne' (hz e (by rw [this]; exact he))
      · by_cases c3 : ∀ a ∈ d, a.2 ≤ 0
        · have := h7 c3 c1
          obtain ⟨e, he, hne'⟩ := c1
          have := hz (e.1, -e.2) (by rw [this]; exact List.mem_map.2 ⟨e, he, rfl⟩)
          exact hne' (by simpa using this)
        · push Not at c2 c3
          have hm : Mixed d := ⟨c3, c2⟩
          have := (h8 hm).1 a ha
          rw [hz a ha] at this
          exact lt_irrefl _ this
  refine ⟨_, by unfold transactionsFromArg transactionsFromTiming; rw [h1, ok_bind]; simp only [htot, if_false]; rfl, ?_⟩
  intro k hk
  rw [Dict.keys_mapVals] at hk
  exact h4 k hk

/-- Paying or refunding withheld tax goes through. -/
theorem update_ok {available : P} {tax : P → Pool K → Except PyErr K} {f : Alloc P K} {p : P}
    {d : Dict K K} (old : K) (hs : Good f.s) (hd : Dict.WF d) (hw : Within d)
    (hav : ∃ b e, f.s.pools available = .dict b e) (hx : ∃ x, tax p (f.s.pools p) = .ok x) :
    ∃ f', updateTaxWithheld ttv default available tax f p d old = (f', none) := by
  obtain ⟨x, hx⟩ := hx
  unfold updateTaxWithheld
  rw [hx]
  simp only
  split_ifs with hxo
  · exact ⟨f, rfl⟩
  · obtain ⟨t, h1, h2⟩ := rescale_ok hd (x - old)
    rw [h1]
    simp only
    have : ∃ s', SubForecast.addTransactions ttv default f.s t none (some available) false
        = (s', none) := by
      have hw' : Within t := fun k hk => hw k (h2 k hk)
      clear h1 h2
      unfold SubForecast.addTransactions
      generalize f.s = s at hs hav
      induction t generalizing s with
      | nil => exact ⟨s, rfl⟩
      | cons kv l ih =>
        have hkv := hw' kv.1 (by simp [Dict.keys])
        obtain ⟨s1, e1⟩ := request_dict_ok ttv default hs
          (q := { value := kv.2, timing := some (.scalar (.num kv.1)), src := none,
                  dst := some available, strict := false })
          ⟨_, resolve_scalar default hkv.1 hkv.2, by simp [Dict.total_cons]⟩
          (by intro p hp; cases hp) (by intro p hp; cases hp; exact hav)
        have hl := legs_addTransaction ttv default s
          { value := kv.2, timing := some (.scalar (.num kv.1)), src := none,
            dst := some available, strict := false }
        rw [e1] at hl
        obtain ⟨s2, e2⟩ := ih (fun k hk => hw' k (by
          simp only [Dict.keys, List.map_cons, List.mem_cons]; exact .inr hk)) s1 (hl.inv hs).1
          (dict_legs hl hav)
        exact ⟨s2, by unfold forEach; simp only [e1, e2]⟩
    obtain ⟨s', h3⟩ := this
    rw [h3]
    exact ⟨_, rfl⟩

/-- Everybody's withheld tax is read. -/
theorem snapshot_ok {tax : P → Pool K → Except PyErr K} {pools : P → Pool K} {l : List P}
    (h : ∀ p ∈ l, ∃ x, tax p (pools p) = .ok x) :
    ∃ old, taxSnapshot tax pools l = .ok old ∧ ∀ p ∈ l, p ∈ Dict.keys old := by
  unfold taxSnapshot
  have key : ∀ (l : List P), (∀ p ∈ l, ∃ x, tax p (pools p) = .ok x) → ∀ d : Dict P K,
      ∃ old, l.foldlM (fun d p => do
        let x ← tax p (pools p)
        .ok (Dict.set d p x)) d = .ok old ∧ (∀ p ∈ l, p ∈ Dict.keys old) ∧
        ∀ p ∈ Dict.keys d, p ∈ Dict.keys old := by
    intro l
    induction l with
    | nil => intro _ d; exact ⟨d, rfl, by simp, fun _ h => h⟩
    | cons q l ih =>
      intro hl d
      obtain ⟨x, hx⟩ := hl q (by simp)
      obtain ⟨old, h1, h2, h3⟩ := ih (fun p hp => hl p (by simp [hp])) (Dict.set d q x)
      refine ⟨old, by rw [List.foldlM_cons, hx]; exact h1, fun p hp => ?_,
        fun p hp => h3 p (Dict.mem_keys_set.2 (.inr hp))⟩
      rcases List.mem_cons.1 hp with rfl | hp
      · exact h3 p (Dict.mem_keys_set.2 (.inl rfl))
      · exact h2 p hp
  obtain ⟨old, h1, h2, -⟩ := key l h []
  exact ⟨old, h1, h2⟩

/-- Withdrawals that can be made are. -/
theorem withdrawAll_ok {txs : Dict P (Dict K K)} (hwf : Dict.WF txs)
    (hwf' : ∀ e ∈ txs, Dict.WF e.2) {tax : P → Pool K → Except PyErr K} {old : Dict P K}
    (hold : ∀ p ∈ Dict.keys txs, p ∈ Dict.keys old)
    (htax : ∀ p ∈ Dict.keys txs, ∀ L a, ∃ x, tax p (.acct L a) = .ok x)
    {f : Alloc P K} (hs : Good f.s) (ho : OnTime f.s) {available : P}
    (hav : ∃ b d, f.s.pools available = .dict b d) (ht : Tells ttv) (hp : AllPayable f.s txs) :
    ∃ f', withdrawAll ttv default available tax old f txs = (f', none) := by
  induction txs generalizing f with
  | nil => exact ⟨f, rfl⟩
  | cons e l ih =>
    obtain ⟨hn, hl⟩ := Dict.wf_cons.1 hwf
    obtain ⟨s1, h1, h2, h3, h4, h5, h6⟩ := series_step ttv default hs ho hav ht hwf hp
    have hek : e.1 ∈ Dict.keys (e :: l) := by simp [Dict.keys]
    obtain ⟨o, hold'⟩ := Option.isSome_iff_exists.1 (Dict.get?_isSome.2 (hold e.1 hek))
    obtain ⟨hw, L, a, e1, -, -⟩ := hp e (by simp)
    have hx : ∃ x, tax e.1 (s1.pools e.1) = .ok x := by
      have hk := kinds_legs (legs_series ttv default f.s e.2 (some available) (some e.1) false) e.1
      rw [h1, e1] at hk
      cases hq : s1.pools e.1 with
      | dict b d => simp only [hq] at hk; simp [SameKind] at hk
      | acct L' a' => exact htax e.1 hek _ _
    obtain ⟨f1, u1⟩ := update_ok ttv default (tax := tax) (f := { f with s := s1 }) (p := e.1) o h2
      (hwf' e (by simp)) hw h4 hx
    have hl' := legs_updateTax ttv default available tax { f with s := s1 } e.1 e.2 o
    rw [u1] at hl'
    have hg1 := (hl'.inv h2).1
    obtain ⟨f2, u2⟩ := ih hl (fun e he => hwf' e (by simp [he]))
      (fun p hp => hold p (by simp only [Dict.keys, List.map_cons, List.mem_cons]; exact .inr hp))
      (fun p hp => htax p (by simp only [Dict.keys, List.map_cons, List.mem_cons]; exact .inr hp))
      (f := f1) hg1 (update_onTime ttv default tax (f := { f with s := s1 }) h3 u1)
      (dict_legs hl' h4) (by
        intro e' he'
        obtain ⟨w', L', a', g1, g2, g3⟩ := h6 e' he'
        refine ⟨w', L', a', ?_, g2, g3⟩
        have hne : e'.1 ≠ available := by
          obtain ⟨b, d, h⟩ := h4
          intro h'
          rw [h', h] at g1; cases g1
        rw [(update_frame ttv default hne tax (f := { f with s := s1 }) h2 u1).1]
        exact g1)
    exact ⟨f2, by unfold withdrawAll; simp only [h1, hold', u1, u2]⟩

end Forecaster.CashFlow

namespace Forecaster.SubForecast

open Forecaster Forecaster.Timing Forecaster.Account

variable {K : Type} [Field K] [LinearOrder K] [IsStrictOrderedRing K]
variable {P : Type} [DecidableEq P]
variable (ttv : Acct K → K → K → Except PyErr (Ext K)) (default : Dict K K)

/-- Several transactions with account `p`. -/
theorem series_moved {txs : Dict K K} {s s' : St P K} (hs : Good s) {available p : P}
    (hp : p ≠ available) {L : Limits K} {a : Acct K} (ha : s.pools p = .acct L a)
    (hd : ∀ e ∈ txs, e.2 ≤ 0) (hsg : Signed (-1) a.txns)
    (h : SubForecast.addTransactions ttv default s txs (some available) (some p) false
      = (s', none)) :
    ∃ a', s'.pools p = .acct L a' ∧ Signed (-1) a'.txns ∧ Good s' := by
  unfold SubForecast.addTransactions at h
  induction txs generalizing s a with
  | nil => cases h; exact ⟨a, ha, hsg, hs⟩
  | cons kv l ih =>
    obtain ⟨s1, h1, h2⟩ := forEach_cons_ok h
    obtain ⟨a1, e1, -, e3, e4⟩ := one_moved ttv default hs hp ha h1
    exact ih e3 e1 (fun e he => hd e (by simp [he])) (e4 (hd kv (by simp)) hsg) h2

end Forecaster.SubForecast

namespace Forecaster.CashFlow

open Forecaster Forecaster.Timing Forecaster.Account Forecaster.SubForecast

variable {K : Type} [Field K] [LinearOrder K] [IsStrictOrderedRing K]
variable {P : Type} [DecidableEq P]
variable (ttv : Acct K → K → K → Except PyErr (Ext K)) (default : Dict K K)

theorem moveAll_moved {txs : Dict P (Dict K K)} {s s' : St P K} (hs : Good s) {available p : P}
    (hp : p ≠ available) {L : Limits K} {a : Acct K} (ha : s.pools p = .acct L a)
    (hd : ∀ e ∈ txs, ∀ f ∈ e.2, f.2 ≤ 0) (hsg : Signed (-1) a.txns)
    (h : moveAll ttv default available s txs = (s', none)) :
    ∃ a', s'.pools p = .acct L a' ∧ Signed (-1) a'.txns := by
  unfold moveAll at h
  induction txs generalizing s a with
  | nil => cases h; exact ⟨a, ha, hsg⟩
  | cons e l ih =>
    obtain ⟨s1, h1, h2⟩ := forEach_cons_ok h
    by_cases he : e.1 = p
    · subst he
      obtain ⟨a1, e1, e2, e3⟩ := series_moved ttv default hs hp ha (hd e (by simp)) hsg h1
      exact ih e3 e1 (fun e he => hd e (by simp [he])) e2 h2
    · have hf := series_frame ttv default e.2 (src := some available) (dst := some e.1) false s
        (p := p) (fun c => hp (Option.some.inj c).symm) (fun c => he (Option.some.inj c))
      have hg := (series_effect ttv default hs h1).2.1
      rw [h1] at hf
      exact ih hg (hf.trans ha) (fun e he => hd e (by simp [he])) hsg h2

end Forecaster.CashFlow

namespace Forecaster.Household

open Forecaster Forecaster.Timing Forecaster.Account Forecaster.SubForecast Forecaster.CashFlow

variable {K : Type} [Field K] [LinearOrder K] [IsStrictOrderedRing K]
variable {N A : Type} [DecidableEq N] [DecidableEq A]

/-- Saving that only takes money out leaves only withdrawals. -/
theorem call_saving_moved {E : Env N A K} {w w' : Home N A K} {av av' : Dict K K} (hb : Books w av)
    (hi : Idle (w.sub .saving)) {p : Dict A (Dict K K)}
    (hp : E.saving (w.sub .saving).year (pools E w av) = .ok p)
    (hd : ∀ e ∈ p, ∀ f ∈ e.2, f.2 ≤ 0)
    (h : call E .saving w av = .ok (w', av')) {a : A} (hsg : Signed (-1) (w.accounts a).txns) :
    Signed (-1) (w'.accounts a).txns := by
  have hg := good_enter (E := E) hb hi
  simp only [call] at h
  obtain ⟨h1, h2⟩ := finish_ok h
  obtain ⟨x, hx, -⟩ := call_first hg hi.2 none
  unfold savingCall at h1 h2
  simp only [enterAlloc, hx] at h1 h2
  have hpl : planOf (E.saving (w.sub .saving).year (enter E w .saving av).pools) = .ok (plan p) := by
    show planOf (E.saving _ (pools E w av)) = _
    rw [hp]; rfl
  simp only [hpl] at h1 h2
  rcases hm : moveAll E.ttv (E.default .saving) none
    { enter E w .saving av with called := true, totalAvailable := x } (plan p) with ⟨s', _ | e⟩
  · rw [hm] at h2
    obtain ⟨a', e1, e2⟩ := moveAll_moved E.ttv (E.default .saving)
      (good_begin hg x) (p := some a) (by simp) (L := E.limits a (w.accounts a))
      (a := w.accounts a) rfl (fun e he => by
        simp only [plan, List.mem_map] at he
        obtain ⟨e', he', rfl⟩ := he
        exact hd e' he') hsg hm
    have : w' = _ := congrArg Prod.fst h2
    rw [this]
    simp only [leave, accountsAfter, e1]
    exact e2
  · rw [hm] at h1; simp at h1

/-! ### Calls that go through -/

theorem call_income_ok {E : Env N A K} {w : Home N A K} {av : Dict K K} (hb : Books w av)
    (hi : Idle (w.sub .income)) (hd : Dict.total (E.default .income) ≠ 0)
    (hp : PaidProperly (earners E w)) : ∃ r, call E .income w av = .ok r := by
  obtain ⟨s', c1, -⟩ := C62_income E.ttv (E.default .income)
    (good_enter (E := E) hb hi) hi.2 (f := true) (d := av) (available := none) rfl hd
    (earners E w) hp
  simp only [call, finishPlain, c1]
  exact ⟨_, rfl⟩

theorem call_living_ok {E : Env N A K} {w : Home N A K} {av : Dict K K} (hb : Books w av)
    (hi : Idle (w.sub .living)) (hp : PaidProperly (earners E w))
    (hn : ((earners E w).map Earner.net).sum ≠ 0)
    (hx : ∃ x, E.expenses (w.sub .living).year w.accounts = .ok x) :
    ∃ r, call E .living w av = .ok r := by
  obtain ⟨x, hx⟩ := hx
  obtain ⟨s', c1, -⟩ := C63_living_expenses E.ttv (E.default .living)
    (good_enter (E := E) hb hi) hi.2 (available := none) (f := true) (d := av) rfl (earners E w) hp
    hn x
  simp only [call, finishPlain, hx, c1]
  exact ⟨_, rfl⟩

theorem call_living_error {E : Env N A K} {w : Home N A K} {av : Dict K K} (hb : Books w av)
    (hi : Idle (w.sub .living)) (hne : E.people ≠ [])
    (hn : ((earners E w).map Earner.net).sum = 0) :
    call E .living w av = .error .zeroDivisionError := by
  obtain ⟨x, hx, -⟩ := call_first (good_enter (E := E) (k := .living) hb hi) hi.2 none
  have hne' : earners E w ≠ [] := by simpa [earners] using hne
  have hl : livingReqs none (earners E w) (E.expenses (w.sub .living).year w.accounts)
      = .error .zeroDivisionError := by
    rw [← netIncome_eq] at hn
    unfold livingReqs
    split
    · next h => exact absurd h hne'
    · rw [if_pos hn]
  simp only [call, finishPlain, livingCall, hx, hl]
  rfl

theorem allPayable_plan {E : Env N A K} {w : Home N A K} {k : Kind} {av : Dict K K}
    {p : Dict A (Dict K K)} (x : Ext K)
    (h : ∀ e ∈ p, Within e.2 ∧ IsGrowth (w.accounts e.1).A ∧
      Payable (E.limits e.1 (w.accounts e.1)) (w.accounts e.1) e.2) :
    AllPayable { enter E w k av with called := true, totalAvailable := x } (plan p) := by
  intro e he
  simp only [plan, List.mem_map] at he
  obtain ⟨e', he', rfl⟩ := he
  obtain ⟨h1, h2, h3⟩ := h e' he'
  exact ⟨h1, _, _, rfl, h2, h3⟩

theorem call_saving_ok {E : Env N A K} {w : Home N A K} {av : Dict K K} (hb : Books w av)
    (hi : Idle (w.sub .saving)) (hw : Within av) (ht : Tells E.ttv) {p : Dict A (Dict K K)}
    (hp : E.saving (w.sub .saving).year (pools E w av) = .ok p) (hwf : Dict.WF p)
    (h : ∀ e ∈ p, Within e.2 ∧ IsGrowth (w.accounts e.1).A ∧
      Payable (E.limits e.1 (w.accounts e.1)) (w.accounts e.1) e.2) :
    ∃ r, call E .saving w av = .ok r := by
  have hg := good_enter (E := E) hb hi
  obtain ⟨x, hx, -⟩ := call_first hg hi.2 none
  have hpl : planOf (E.saving (w.sub .saving).year (enter E w .saving av).pools) = .ok (plan p) := by
    show planOf (E.saving _ (pools E w av)) = _
    rw [hp]; rfl
  obtain ⟨s', hs'⟩ := moveAll_ok E.ttv (E.default .saving) (wf_plan hwf) (available := none)
    (good_begin hg x) (fun p f d hp => enter_onTime (E := E) (w := w) (k := .saving) hw p f d hp)
    ⟨true, av, rfl⟩ ht (allPayable_plan x h)
  simp only [call, savingCall, enterAlloc, hx, hpl, hs']
  exact ⟨_, rfl⟩

theorem call_withdrawal_ok {E : Env N A K} {w : Home N A K} {av : Dict K K} (hb : Books w av)
    (hi : Idle (w.sub .withdrawal)) (hw : Within av) (ht : Tells E.ttv) {p : Dict A (Dict K K)}
    (hp : E.withdrawal (w.sub .withdrawal).year (pools E w av) = .ok p) (hwf : Dict.WF p)
    (hwf' : ∀ e ∈ p, Dict.WF e.2) (hk : ∀ e ∈ p, e.1 ∈ E.assets)
    (h : ∀ e ∈ p, Within e.2 ∧ IsGrowth (w.accounts e.1).A ∧
      Payable (E.limits e.1 (w.accounts e.1)) (w.accounts e.1) e.2) :
    ∃ r, call E .withdrawal w av = .ok r := by
  have hg := good_enter (E := E) hb hi
  obtain ⟨x, hx, -⟩ := call_first hg hi.2 none
  have hpl : planOf (E.withdrawal (w.sub .withdrawal).year (enter E w .withdrawal av).pools)
      = .ok (plan p) := by
    show planOf (E.withdrawal _ (pools E w av)) = _
    rw [hp]; rfl
  obtain ⟨old, ho, hin⟩ := snapshot_ok (tax := poolTax E) (pools := (enter E w .withdrawal av).pools)
    (l := E.assets.map some) (by
      intro q hq
      obtain ⟨a, -, rfl⟩ := List.mem_map.1 hq
      exact ⟨_, rfl⟩)
  have hkey : ∀ q ∈ Dict.keys (plan p), ∃ e ∈ p, q = some e.1 := by
    intro q hq
    rw [keys_plan, List.mem_map] at hq
    obtain ⟨a, ha, rfl⟩ := hq
    obtain ⟨e, he, rfl⟩ := List.mem_map.1 ha
    exact ⟨e, he, rfl⟩
  have hall := withdrawAll_ok E.ttv (E.default .withdrawal) (wf_plan hwf) (available := none)
    (fun e he => by
      simp only [plan, List.mem_map] at he
      obtain ⟨e', he', rfl⟩ := he
      exact hwf' e' he') (tax := poolTax E) (old := old)
    (fun q hq => by
      obtain ⟨e, he, rfl⟩ := hkey q hq
      exact hin _ (List.mem_map.2 ⟨_, hk e he, rfl⟩))
    (fun q hq L a => by
      obtain ⟨e, he, rfl⟩ := hkey q hq
      exact ⟨_, rfl⟩)
    (f := { s := { enter E w .withdrawal av with called := true, totalAvailable := x },
            txs := plan p,
            withheld := if (w.sub .withdrawal).called then 0 else (w.sub .withdrawal).withheld })
    (good_begin hg x)
    (fun p f d hp => enter_onTime (E := E) (w := w) (k := .withdrawal) hw p f d hp)
    ⟨true, av, rfl⟩ ht (allPayable_plan x h)
  obtain ⟨f', hf'⟩ := hall
  simp only [call, withdrawalCall, enterAlloc, hx, hpl, ho]
  generalize hm : withdrawAll (P := Option A) (K := K) E.ttv _ _ _ _ _ _ = r
  have hr : r = (f', none) := hm.symm.trans hf'
  rw [hr]
  exact ⟨_, rfl⟩

theorem call_tax_ok {E : Env N A K} {w : Home N A K} {av : Dict K K} (hb : Books w av)
    (hi : Idle (w.sub .tax)) : ∃ r, call E .tax w av = .ok r := by
  obtain ⟨x, hx, -⟩ := call_first (good_enter (E := E) (k := .tax) hb hi) hi.2 none
  simp only [call, finishPlain, hx]
  exact ⟨_, rfl⟩

end Forecaster.Household
