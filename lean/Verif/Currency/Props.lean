import Verif.Currency.Model
import Verif.Vol.Lemmas

/-!
# Property C99: payments stay in the currency of the contract
-/

namespace QM.Currency
open QM.Interp QM.Vol QM.Fixings QM.Instruments

namespace Spec

mutual
/-- Every basket, at any depth, has members that pay in its own currency. -/
def Consistent : Paying → Prop
  | .basket _ _ c _ parts => AllIn c parts
  | .spotStarting _ u _ => Consistent u
  | .forwardStarting _ u _ _ _ => Consistent u
  | _ => True

/-- All positions pay in the one currency, and are consistent. -/
def AllIn (c : Money) : List (ℝ × Paying) → Prop
  | [] => True
  | (_, i) :: rest => i.payoffCurrency = c ∧ Consistent i ∧ AllIn c rest
end

end Spec
open Spec

variable {table : FixingTable ℝ}

theorem allIn_iff {c : Money} : ∀ {l : List (ℝ × Paying)}, AllIn c l ↔ ∀ e ∈ l, e.2.payoffCurrency = c ∧ Consistent e.2
  | [] => by simp [AllIn]
  | (w, i) :: l => by
    rw [AllIn, allIn_iff (l := l)]
    simp only [List.mem_cons, forall_eq_or_imp]
    tauto

theorem eraseAll_map : ∀ l : List (ℝ × Paying), eraseAll l = l.map fun e => (e.1, e.2.erase)
  | [] => rfl
  | (w, i) :: l => by rw [eraseAll, eraseAll_map l]; rfl

/-! ## The currencies change nothing else -/

/-- The state without the currencies. -/
def eraseState (s : FixState) : Instruments.FixState := ⟨eraseAll s.basket, s.uncopied, s.modified⟩

theorem erase_step (all : List (ℝ × Paying)) (w : ℝ) (i : Paying) (d : Option (List (ℝ × Paying))) (s : FixState) :
    eraseState (fixStep all w i d s) = Instruments.fixStep (eraseAll all) w i.erase (d.map eraseAll) (eraseState s) := by
  obtain ⟨b, n, m⟩ := s
  cases d <;> cases m <;> simp [fixStep, Instruments.fixStep, eraseState, eraseAll_map, List.map_take, Function.comp_def]

theorem erase_spot (v : Vanilla) (u : Paying) (k : ℝ) :
    Instruments.fixSpotStarting table v u.erase k = (fixSpotStarting table v u k).map (Option.map eraseAll) := by
  unfold Instruments.fixSpotStarting fixSpotStarting
  cases table.get u.erase.id v.expiry with
  | error _ => rfl
  | ok x =>
    cases x with
    | none => rfl
    | some x =>
      show Except.ok (some _) = Except.ok (some _)
      congr 2
      unfold Instruments.decompose decompose
      cases v.cashOrPhysical <;> dsimp only <;> split <;> rfl

theorem erase_forward (v : Vanilla) (u : Paying) (k : ℝ) (d : DateTime) :
    Instruments.fixForwardStarting table v u.erase k d = (fixForwardStarting table v u k d).map (Option.map eraseAll) := by
  unfold Instruments.fixForwardStarting fixForwardStarting
  cases table.get u.erase.id d with
  | error _ => rfl
  | ok x =>
    cases x with
    | none => rfl
    | some x =>
      show (do
        let further ← Instruments.fixSpotStarting table v u.erase (x * k)
        match further with
        | some d => pure (some d)
        | none => pure (some [(1, .spotStarting v u.erase (x * k))])) = Except.map _ (do
        let further ← fixSpotStarting table v u (x * k)
        match further with
        | some d => pure (some d)
        | none => pure (some [(1, .spotStarting v u (x * k))]))
      rw [erase_spot]
      cases fixSpotStarting table v u (x * k) with
      | error _ => rfl
      | ok y => cases y <;> rfl

mutual
theorem erase_fix : ∀ i : Paying, i.erase.fix table = (i.fix table).map (Option.map eraseAll)
  | .currency _ => rfl
  | .creditEntity _ _ _ => rfl
  | .equity _ _ _ _ => rfl
  | .zeroCoupon _ _ _ _ _ _ => rfl
  | .basket id creditId c settlement parts => by
    rw [Paying.erase, Instrument.fix, Paying.fix]
    have h := erase_loop parts parts ⟨[], 0, false⟩
    rw [show (⟨[], 0, false⟩ : Instruments.FixState) = eraseState ⟨[], 0, false⟩ from rfl, h]
    cases fixLoop table parts parts ⟨[], 0, false⟩ with
    | error _ => rfl
    | ok s =>
      obtain ⟨b, n, m⟩ := s
      cases m <;> rfl
  | .spotStarting v u k => by rw [Paying.erase, Instrument.fix, Paying.fix, erase_spot]
  | .forwardStarting v u k d t => by rw [Paying.erase, Instrument.fix, Paying.fix, erase_forward]

theorem erase_loop (all : List (ℝ × Paying)) : ∀ (l : List (ℝ × Paying)) (s : FixState),
    Instruments.fixLoop table (eraseAll all) (eraseAll l) (eraseState s) = (fixLoop table all l s).map eraseState
  | [], s => rfl
  | (w, i) :: l, s => by
    rw [eraseAll, Instruments.fixLoop, fixLoop, erase_fix i]
    cases i.fix table with
    | error _ => rfl
    | ok d =>
      show Instruments.fixLoop table (eraseAll all) (eraseAll l) (Instruments.fixStep (eraseAll all) w i.erase (d.map eraseAll) (eraseState s)) =
        (fixLoop table all l (fixStep all w i d s)).map eraseState
      rw [← erase_step, erase_loop all l]
end

/-! ## C99 -/

/-- C99. Instruments with currencies are fixed as those without: what holds of the one model holds of the other. -/
theorem C99_erase (i : Paying) : i.erase.fix table = (i.fix table).map (Option.map (List.map fun e => (e.1, e.2.erase))) := by
  rw [erase_fix, show eraseAll = List.map fun e => (e.1, e.2.erase) from funext eraseAll_map]

/-- A list of positions that pay in the currency of an instrument, and are as consistent as it is. -/
def Keeps (u : Paying) (d : List (ℝ × Paying)) : Prop := ∀ e ∈ d, e.2.payoffCurrency = u.payoffCurrency ∧ (Consistent u → Consistent e.2)

theorem decompose_keeps {v : Vanilla} {u : Paying} {k x : ℝ} : Keeps u (decompose v u k x) := by
  have hp : (payment v u).payoffCurrency = u.payoffCurrency ∧ (Consistent u → Consistent (payment v u)) := ⟨rfl, fun _ => trivial⟩
  intro e he
  unfold decompose at he
  split at he
  · dsimp only at he
    split at he
    · rw [List.mem_singleton.1 he]
      exact hp
    · cases he
  · split at he
    · rcases List.mem_cons.1 he with rfl | he
      · exact hp
      · rw [List.mem_singleton.1 he]
        exact ⟨rfl, fun h => h⟩
    · cases he

theorem spot_keeps {v : Vanilla} {u : Paying} {k : ℝ} {d : List (ℝ × Paying)}
    (h : fixSpotStarting table v u k = .ok (some d)) : Keeps u d := by
  unfold fixSpotStarting at h
  obtain ⟨x, _, h⟩ := bind_ok h
  cases x with
  | none => cases h
  | some x =>
    cases h
    exact decompose_keeps

theorem forward_keeps {v : Vanilla} {u : Paying} {k : ℝ} {t : DateTime} {d : List (ℝ × Paying)}
    (h : fixForwardStarting table v u k t = .ok (some d)) : Keeps u d := by
  unfold fixForwardStarting at h
  obtain ⟨x, _, h⟩ := bind_ok h
  cases x with
  | none => cases h
  | some x =>
    obtain ⟨y, hy, h⟩ := bind_ok h
    cases y with
    | some y =>
      cases h
      exact spot_keeps hy
    | none =>
      cases h
      intro e he
      rw [List.mem_singleton.1 he]
      exact ⟨rfl, fun hu => by rw [Consistent]; exact hu⟩

theorem step_in {c : Money} {all : List (ℝ × Paying)} {w : ℝ} {i : Paying} {d : Option (List (ℝ × Paying))} {s : FixState} (ha : AllIn c all)
    (hi : i.payoffCurrency = c ∧ Consistent i) (hd : ∀ l, d = some l → AllIn c l) (hs : AllIn c s.basket) : AllIn c (fixStep all w i d s).basket := by
  rw [allIn_iff] at ha hs ⊢
  cases d with
  | none =>
    unfold fixStep
    dsimp only
    split
    · intro e he
      rcases List.mem_append.1 he with he | he
      · exact hs e he
      · rw [List.mem_singleton.1 he]
        exact hi
    · exact hs
  | some l =>
    have hl := allIn_iff.1 (hd l rfl)
    intro e he
    have hm : e ∈ s.basket ∨ e ∈ all ∨ ∃ p ∈ l, e = (w * p.1, p.2) := by
      unfold fixStep at he
      dsimp only at he
      rcases List.mem_append.1 he with he | he
      · split at he
        · rcases List.mem_append.1 he with he | he
          · exact .inl he
          · exact .inr (.inl (List.mem_of_mem_take he))
        · exact .inl he
      · obtain ⟨p, hp, rfl⟩ := List.mem_map.1 he
        exact .inr (.inr ⟨p, hp, rfl⟩)
    rcases hm with he | he | ⟨p, hp, rfl⟩
    · exact hs e he
    · exact ha e he
    · exact hl p hp

mutual
/-- C99. Whatever an instrument turns into when it is fixed pays in the currency of the instrument, down to the members of baskets. -/
theorem C99_fix : ∀ (i : Paying) {d : List (ℝ × Paying)}, Consistent i → i.fix table = .ok (some d) → AllIn i.payoffCurrency d
  | .currency _, _, _, h => by cases h
  | .creditEntity _ _ _, _, _, h => by cases h
  | .equity _ _ _ _, _, _, h => by cases h
  | .zeroCoupon _ _ _ _ _ _, _, _, h => by cases h
  | .basket id creditId c settlement parts, d, hi, h => by
    rw [Paying.fix] at h
    rw [Consistent] at hi
    obtain ⟨s, hs, h⟩ := bind_ok h
    have hb := loop_in hi parts hi hs trivial
    unfold FixState.result at h
    cases hm : s.modified with
    | false => rw [hm] at h; cases h
    | true =>
      rw [hm] at h
      cases h
      simp only [AllIn, Consistent, Paying.payoffCurrency, hb, and_self]
  | .spotStarting v u k, d, hi, h => by
    rw [Paying.fix] at h
    rw [Consistent] at hi
    exact allIn_iff.2 fun e he => ⟨(spot_keeps h e he).1, (spot_keeps h e he).2 hi⟩
  | .forwardStarting v u k t _, d, hi, h => by
    rw [Paying.fix] at h
    rw [Consistent] at hi
    exact allIn_iff.2 fun e he => ⟨(forward_keeps h e he).1, (forward_keeps h e he).2 hi⟩

theorem loop_in {c : Money} {all : List (ℝ × Paying)} (ha : AllIn c all) : ∀ (l : List (ℝ × Paying)) {s s' : FixState}, AllIn c l →
    fixLoop table all l s = .ok s' → AllIn c s.basket → AllIn c s'.basket
  | [], s, s', _, h, hs => by cases h; exact hs
  | (w, i) :: l, s, s', hl, h, hs => by
    rw [AllIn] at hl
    rw [fixLoop] at h
    obtain ⟨d, hd, h⟩ := bind_ok h
    refine loop_in ha l hl.2.2 h (step_in ha ⟨hl.1, hl.2.1⟩ ?_ hs)
    rintro m rfl
    have := C99_fix i hl.2.1 hd
    rw [hl.1] at this
    exact this
end

/-- C99, portfolios: fixing one in one currency gives one in the same. -/
theorem C99_portfolio {c : Money} {l l' : List (ℝ × Paying)} (hl : AllIn c l) (h : fixAll table l = .ok (some l')) : AllIn c l' := by
  unfold fixAll at h
  obtain ⟨s, hs, h⟩ := bind_ok h
  have hb := loop_in hl l hl hs trivial
  unfold FixState.result at h
  cases hm : s.modified with
  | false => rw [hm] at h; cases h
  | true =>
    rw [hm] at h
    cases h
    exact hb

/-- C99 without any assumption about the baskets: the instruments that one is replaced by pay in its own currency. -/
theorem C99_outer (i : Paying) {d : List (ℝ × Paying)} (h : i.fix table = .ok (some d)) : ∀ e ∈ d, e.2.payoffCurrency = i.payoffCurrency := by
  cases i with
  | currency _ => cases h
  | creditEntity _ _ _ => cases h
  | equity _ _ _ _ => cases h
  | zeroCoupon _ _ _ _ _ _ => cases h
  | basket id creditId c settlement parts =>
    rw [Paying.fix] at h
    obtain ⟨s, hs, h⟩ := bind_ok h
    unfold FixState.result at h
    cases hm : s.modified with
    | false => rw [hm] at h; cases h
    | true =>
      rw [hm] at h
      cases h
      intro e he
      rw [List.mem_singleton.1 he]
      rfl
  | spotStarting v u k =>
    rw [Paying.fix] at h
    exact fun e he => (spot_keeps h e he).1
  | forwardStarting v u k t t' =>
    rw [Paying.fix] at h
    exact fun e he => (forward_keeps h e he).1

theorem observation_flows (t : MonteCarlo.Timeline) (u : Instrument) (p : Point) : (t.observation u p).flows = t.flows := by
  unfold MonteCarlo.Timeline.observation
  split <;> rfl

/-- C99, Monte-Carlo: an option declares its payment in its own currency, and it is the payment of the model without currencies. -/
theorem C99_flow {i f : Paying} (h : expiryFlow i = some f) :
    f.payoffCurrency = i.payoffCurrency ∧ ∀ t t', MonteCarlo.mcDependencies t i.erase = .ok t' → t'.flows = t.flows ++ [f.erase] := by
  cases i with
  | spotStarting v u k =>
    cases h
    refine ⟨rfl, fun t t' ht => ?_⟩
    rw [Paying.erase, MonteCarlo.mcDependencies] at ht
    cases ht
    rw [Paying.erase, MonteCarlo.Timeline.flow, observation_flows]
    rfl
  | forwardStarting v u k d st =>
    cases h
    refine ⟨rfl, fun t t' ht => ?_⟩
    rw [Paying.erase, MonteCarlo.mcDependencies] at ht
    cases ht
    rw [Paying.erase, MonteCarlo.Timeline.flow, observation_flows, observation_flows]
    rfl
  | _ => cases h

/-- C99: a basket in pounds of a share and of an option on it that settles physically. When the option is fixed, its payment is in pounds. -/
example : ∃ b d, Paying.newBasket "B" "C" ⟨"GBP", id⟩ id [(2, .equity "A" "C" ⟨"GBP", id⟩ id),
      (3, .spotStarting ⟨"O", "C", id, ⟨0, .close⟩, .call, .physical, (0, 0.8), 2⟩ (.equity "A" "C" ⟨"GBP", id⟩ id) 60)] = .ok b ∧
    Consistent b ∧ b.fix ⟨10, ⟨[("A", ⟨[(⟨0, .close⟩, 80)]⟩)]⟩⟩ = .ok (some d) ∧ AllIn ⟨"GBP", id⟩ d ∧
    d = [(1, .basket "B:fixed" "C" ⟨"GBP", id⟩ id [(2, .equity "A" "C" ⟨"GBP", id⟩ id),
      (3 * (-60 * 1), .zeroCoupon "O:payment" "C" ⟨"GBP", id⟩ ⟨0, .close⟩ 2 id), (3 * 1, .equity "A" "C" ⟨"GBP", id⟩ id)])] := by
  refine ⟨_, _, rfl, ?_, ?_, ?_, rfl⟩
  · simp [Consistent, AllIn, Paying.payoffCurrency]
  · have hd : fixSpotStarting ⟨10, ⟨[("A", ⟨[(⟨0, .close⟩, 80)]⟩)]⟩⟩ ⟨"O", "C", id, ⟨0, .close⟩, .call, .physical, (0, 0.8), 2⟩
        (.equity "A" "C" ⟨"GBP", id⟩ id) 60 =
        .ok (some [(-60 * 1, .zeroCoupon "O:payment" "C" ⟨"GBP", id⟩ ⟨0, .close⟩ 2 id), (1, .equity "A" "C" ⟨"GBP", id⟩ id)]) := by
      unfold fixSpotStarting
      show Except.ok (some (decompose _ _ 60 80)) = _
      unfold decompose
      dsimp only
      rw [if_pos (by show (1 : ℝ) * (80 - 60) > 0; norm_num)]
      rfl
    rw [Paying.fix, fixLoop, Paying.fix]
    show (do
      let s ← fixLoop _ _ _ (fixStep _ 2 _ none ⟨[], 0, false⟩)
      match s.result with
      | some basket => do
        let replacement ← Paying.newBasket ("B" ++ ":fixed") "C" ⟨"GBP", id⟩ id basket
        pure (some [((1 : ℝ), replacement)])
      | none => pure none) = _
    rw [fixLoop, Paying.fix, hd]
    rfl
  · simp [Consistent, AllIn, Paying.payoffCurrency]

/-- C99 violated: `Basket::new` says that it validates the currencies of the members, and does not. A basket in euros of a share in pounds and of
one yen is accepted, and it is worth the number of pounds plus one. -/
theorem C99_basket_false : ∃ b, Paying.newBasket "B" "C" ⟨"EUR", id⟩ id [(1, .equity "A" "C" ⟨"GBP", id⟩ id), (1, .currency ⟨"JPY", id⟩)] = .ok b ∧
    ¬ Consistent b ∧ ∀ (fuel : Nat) (ctx : PricingContext) (S : ℝ) (date : DateTime), date.date = ctx.spotDate → ctx.spot "A" = .ok S →
      b.erase.price fuel ctx date = .ok (.val (S + 1)) := by
  refine ⟨_, rfl, ?_, ?_⟩
  · rw [Consistent, AllIn]
    rintro ⟨h, _⟩
    have : "GBP" = "EUR" := congrArg Money.id h
    revert this
    decide
  · intro fuel ctx S date hd hS
    simp only [Paying.erase, eraseAll, Instrument.price, Instrument.prices, basketPrices, equityPrices, if_pos hd, Instrument.id, hS]
    show Except.ok (Num.val (0 + S * 1 + 1 * 1)) = _
    congr 2
    ring

end QM.Currency
