import Verif.Model.RecordedHousehold
import Verif.Props.Recorded

/-! Helper lemmas for `Verif/Props/RecordedHousehold.lean`. -/

namespace Forecaster.Recorded

open Forecaster

variable {N A K : Type} [DecidableEq N] [DecidableEq A] [Field K] [LinearOrder K]
  [IsStrictOrderedRing K]

/-- A property reads only properties of lower rank. -/
def hrank : Key N A → ℕ
  | .person _ .raiseRate => 0
  | .person _ .grossIncome => 1
  | .person _ .taxWithheld => 2
  | .person _ .taxDeduction => 2
  | .person _ .taxCredit => 2
  | .person _ .netIncome => 3
  | .person _ .taxableIncome => 4
  | .account _ .rate => 0
  | .account _ .transactions => 0
  | .account _ .balance => 1
  | .account _ .returns => 2
  | .account _ .taxableIncome => 3
  | .account _ _ => 1

theorem hrank_lt (k : Key N A) : hrank k < 5 := by
  rcases k with ⟨i, p⟩ | ⟨a, p⟩ <;> cases p <;> simp [hrank]

theorem respects_askNum {rank : Key N A → ℕ} {r : ℕ} {now : Key N A → ℤ} {k : Key N A}
    {f : K → Prog (Key N A) (Val K)} (h : rank k < r) (hf : ∀ x, (f x).Respects rank r now) :
    (askNum k f).Respects rank r now := by
  refine ⟨h, fun v => ?_⟩
  cases v with
  | num x => exact hf x
  | txns d => trivial

theorem respects_askTxns {rank : Key N A → ℕ} {r : ℕ} {now : Key N A → ℤ} {k : Key N A}
    {f : Dict K K → Prog (Key N A) (Val K)} (h : rank k < r) (hf : ∀ x, (f x).Respects rank r now) :
    (askTxns k f).Respects rank r now := by
  refine ⟨h, fun v => ?_⟩
  cases v with
  | num x => trivial
  | txns d => exact hf d

theorem respects_pastNum {rank : Key N A → ℕ} {r : ℕ} {now : Key N A → ℤ} {k : Key N A} {y : ℤ}
    {f : K → Prog (Key N A) (Val K)} (h : y ≠ now k) (hf : ∀ x, (f x).Respects rank r now) :
    (pastNum k y f).Respects rank r now := by
  refine ⟨h, fun v => ?_⟩
  rcases v with _ | ⟨x⟩ | d
  · trivial
  · exact hf x
  · trivial

theorem respects_pastTxns {rank : Key N A → ℕ} {r : ℕ} {now : Key N A → ℤ} {k : Key N A} {y : ℤ}
    {f : Dict K K → Prog (Key N A) (Val K)} (h : y ≠ now k) (hf : ∀ x, (f x).Respects rank r now) :
    (pastTxns k y f).Respects rank r now := by
  refine ⟨h, fun v => ?_⟩
  rcases v with _ | ⟨x⟩ | d
  · trivial
  · trivial
  · exact hf d

theorem respects_askSum {rank : Key N A → ℕ} {r : ℕ} {now : Key N A → ℤ} (ks : List (Key N A))
    (h : ∀ k ∈ ks, rank k < r) : ∀ start : K, (askSum ks start).Respects rank r now := by
  induction ks with
  | nil => intro _; trivial
  | cons k ks ih =>
    intro start
    exact respects_askNum (h k List.mem_cons_self) fun x =>
      ih (fun q hq => h q (List.mem_cons_of_mem _ hq)) _

theorem household_acyclic :
    Acyclic (household : Sys (Who N A) (Key N A) (Val K) (World N A K)) hrank := by
  intro k years w
  rcases k with ⟨i, p⟩ | ⟨a, p⟩
  · have hmap : ∀ (p : AProp) (r : ℕ), (∀ a : A, hrank (Key.account (N := N) a p) < r) →
        ∀ k ∈ (w.accounts i).map (fun a => Key.account (N := N) a p), hrank k < r := by
      intro p r h k hk
      obtain ⟨a, _, rfl⟩ := List.mem_map.1 hk
      exact h a
    cases p with
    | grossIncome =>
      show (grossGet i _ w).Respects _ _ _
      have next : (pastNum (Key.person (A := A) i .grossIncome) (years (.person i) - 1) fun x : K =>
          askNum (.person i .raiseRate) fun r => ret (x * (1 + r))).Respects hrank
            (hrank (Key.person (A := A) i .grossIncome)) (fun q => years q.who) :=
        respects_pastNum (by simp only [Key.who]; omega) fun x =>
          respects_askNum (by simp [hrank]) fun r => trivial
      simp only [grossGet]
      cases w.retirement i with
      | none => exact next
      | some y' =>
        simp only
        split
        · trivial
        · exact next
    | netIncome =>
      exact respects_askNum (by simp [hrank]) fun x => respects_askNum (by simp [hrank]) fun _ => trivial
    | raiseRate => trivial
    | taxDeduction => exact respects_askSum _ (hmap _ _ (by simp [hrank])) 0
    | taxCredit => exact respects_askSum _ (hmap _ _ (by simp [hrank])) 0
    | taxableIncome =>
      exact respects_askNum (by simp [hrank]) fun x => respects_askSum _ (hmap _ _ (by simp [hrank])) x
    | taxWithheld =>
      show (withheldGet i _ w).Respects _ _ _
      unfold withheldGet
      cases w.tax i with
      | none => trivial
      | some t => exact respects_askNum (by simp [hrank]) fun _ => trivial
  · have hruled : ∀ (p : AProp) (f : Rules K → Dict K K → Except PyErr K) (P : Prog (Key N A) (Val K)),
        hrank (Key.account (N := N) a .transactions) < hrank (Key.account (N := N) a p) →
        P.Respects hrank (hrank (Key.account (N := N) a p)) (fun q => years q.who) →
        (ruled a w f P).Respects hrank (hrank (Key.account (N := N) a p)) (fun q => years q.who) := by
      intro p f P h1 h2
      unfold ruled
      cases w.rules a with
      | none => exact h2
      | some R => exact respects_askTxns h1 fun _ => trivial
    cases p with
    | balance =>
      exact respects_pastNum (by simp only [household, Key.who]; omega) fun b =>
        respects_askNum (by simp [hrank]) fun r =>
          respects_pastTxns (by simp only [household, Key.who]; omega) fun d => trivial
    | rate => trivial
    | transactions => trivial
    | returns =>
      exact respects_askNum (by simp [hrank]) fun b =>
        respects_askNum (by simp [hrank]) fun r =>
          respects_askTxns (by simp [hrank]) fun d => trivial
    | taxableIncome =>
      exact hruled _ _ _ (by simp [hrank]) (respects_askNum (by simp [hrank]) fun _ => trivial)
    | taxWithheld => exact hruled _ _ _ (by simp [hrank]) trivial
    | taxCredit => exact hruled _ _ _ (by simp [hrank]) trivial
    | taxDeduction => exact hruled _ _ _ (by simp [hrank]) trivial

theorem household_owned :
    Owned (household : Sys (Who N A) (Key N A) (Val K) (World N A K)) := by
  intro o k hk
  cases o with
  | person i =>
    obtain ⟨p, _, rfl⟩ := List.mem_map.1 (show k ∈ List.map _ _ from hk)
    rfl
  | account a =>
    obtain ⟨p, _, rfl⟩ := List.mem_map.1 (show k ∈ List.map _ _ from hk)
    rfl

theorem mem_props (k : Key N A) :
    k ∈ (household : Sys (Who N A) (Key N A) (Val K) (World N A K)).props k.who := by
  rcases k with ⟨i, p⟩ | ⟨a, p⟩ <;> cases p <;> simp [household, recordedProps, Key.who]

/-! ### Values -/

/-- The value of a property in a state. -/
abbrev hval (s : HSt N A K) (k : Key N A) : Except PyErr (Val K) := val household hrank s k

theorem read_val {n : ℕ} (hn : 5 ≤ n) (k : Key N A) (s : HSt N A K) :
    read household n k s = (hval s k, grow household hrank s (fills household hrank s k)) :=
  read_eq household_acyclic (lt_of_lt_of_le (hrank_lt k) hn) s

theorem evProg_askNum {f : Key N A → Except PyErr (Val K)} {s : HSt N A K} {k : Key N A}
    {g : K → Prog (Key N A) (Val K)} {v : Val K} (h : evProg f s (askNum k g) = .ok v) :
    ∃ x, f k = .ok (.num x) ∧ evProg f s (g x) = .ok v := by
  simp only [askNum, evProg] at h
  cases hf : f k with
  | error e => rw [hf] at h; cases h
  | ok w =>
    rw [hf] at h
    cases w with
    | num x => exact ⟨x, rfl, h⟩
    | txns d => cases h

theorem evProg_askTxns {f : Key N A → Except PyErr (Val K)} {s : HSt N A K} {k : Key N A}
    {g : Dict K K → Prog (Key N A) (Val K)} {v : Val K} (h : evProg f s (askTxns k g) = .ok v) :
    ∃ x, f k = .ok (.txns x) ∧ evProg f s (g x) = .ok v := by
  simp only [askTxns, evProg] at h
  cases hf : f k with
  | error e => rw [hf] at h; cases h
  | ok w =>
    rw [hf] at h
    cases w with
    | num x => cases h
    | txns d => exact ⟨d, rfl, h⟩

theorem evProg_pastNum {f : Key N A → Except PyErr (Val K)} {s : HSt N A K} {k : Key N A} {y : ℤ}
    {g : K → Prog (Key N A) (Val K)} {v : Val K} (h : evProg f s (pastNum k y g) = .ok v) :
    ∃ x, Dict.get? (s.hist k) y = some (.num x) ∧ evProg f s (g x) = .ok v := by
  simp only [pastNum, evProg] at h
  cases hf : Dict.get? (s.hist k) y with
  | none => rw [hf] at h; cases h
  | some w =>
    rw [hf] at h
    cases w with
    | num x => exact ⟨x, rfl, h⟩
    | txns d => cases h

theorem evProg_pastTxns {f : Key N A → Except PyErr (Val K)} {s : HSt N A K} {k : Key N A} {y : ℤ}
    {g : Dict K K → Prog (Key N A) (Val K)} {v : Val K} (h : evProg f s (pastTxns k y g) = .ok v) :
    ∃ x, Dict.get? (s.hist k) y = some (.txns x) ∧ evProg f s (g x) = .ok v := by
  simp only [pastTxns, evProg] at h
  cases hf : Dict.get? (s.hist k) y with
  | none => rw [hf] at h; cases h
  | some w =>
    rw [hf] at h
    cases w with
    | num x => cases h
    | txns d => exact ⟨d, rfl, h⟩

theorem hval_none {s : HSt N A K} {k : Key N A} (h : s.now household k = none) :
    hval s k = evProg (hval s) s (getter k s.year s.world) :=
  (val_none household_acyclic h).1

/-- A balance that is computed. -/
theorem hval_balance {s : HSt N A K} {a : A} {v : Val K}
    (h : s.now household (.account a .balance) = none) (hv : hval s (.account a .balance) = .ok v) :
    ∃ b r d, Dict.get? (s.hist (.account a .balance)) (s.year (.account a) - 1) = some (.num b) ∧
      hval s (.account a .rate) = .ok (.num r) ∧
      Dict.get? (s.hist (.account a .transactions)) (s.year (.account a) - 1) = some (.txns d) ∧
      v = .num (grown (s.world.growth a r) b d) := by
  rw [hval_none h] at hv
  obtain ⟨b, h1, hv⟩ := evProg_pastNum hv
  obtain ⟨r, h2, hv⟩ := evProg_askNum hv
  obtain ⟨d, h3, hv⟩ := evProg_pastTxns hv
  refine ⟨b, r, d, h1, h2, h3, ?_⟩
  simp only [ret, evProg] at hv
  cases hv; rfl

/-- The rate is computed when the balance is. -/
theorem rate_filled {s : HSt N A K} {a : A} {b : K}
    (h : s.now household (.account a .balance) = none)
    (hr : s.now household (.account a .rate) = none)
    (h1 : Dict.get? (s.hist (.account a .balance)) (s.year (.account a) - 1) = some (.num b)) :
    Key.account a .rate ∈ tr household hrank s (.account a .balance) := by
  rw [(val_none household_acyclic h).2]
  refine .inr ?_
  show _ ∈ trProg _ _ s (pastNum _ _ _)
  simp only [pastNum, trProg, h1, askNum]
  have hmem : Key.account a .rate ∈ tr household hrank s (.account (N := N) a .rate) := by
    rw [(val_none household_acyclic hr).2]
    exact .inl rfl
  cases val household hrank s (.account a .rate) with
  | ok v => exact .inl hmem
  | error e => exact hmem

end Forecaster.Recorded
