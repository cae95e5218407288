import Verif.Risk.PayoutProps

/-!
# Properties C26 and C101, continued: streams with dividends of both kinds
-/

namespace QM.Forward.Spec
open QM.Dividends

/-- What remains of the present value of a share as it goes ex one dividend after another. A dividend is an amount of cash and a fraction of what the share
costs on its ex-date, paid on its payment date; `g` is the interest accrued, less the cost of borrow. -/
noncomputable def remains (g : Int → ℝ) (now : Int) (value : ℝ) : List (Dividend ℝ) → ℝ
  | [] => value
  | d :: rest => remains g now (value - (d.cash + d.relative * (value * Real.exp (g d.exDate - g now))) * Real.exp (g now - g d.payDate)) rest

end QM.Forward.Spec

namespace QM.Forward
open QM.Interp (Num)
open QM.Curves QM.Dividends QM.Dividends.Spec Spec

/-- Dividends on different dates reduce the present value one after another. -/
theorem remains_eq (g : Int → ℝ) (now date : Int) (s : ℝ) (l : List (Dividend ℝ)) (hl : l.Pairwise (fun a b => a.exDate < b.exDate)) :
    ∀ E : List (Projected ℝ), (∀ e ∈ E, e.exDate ≤ date) → (∀ e ∈ E, ∀ d ∈ l, e.exDate < d.exDate) →
      s - total (·.pv) (· ≤ date) (projectFrom s (fun d => Real.exp (g now - g d)) E l) =
        remains g now (s - total (·.pv) (fun _ => true) E) (l.filter fun d => decide (d.exDate ≤ date)) := by
  induction l with
  | nil =>
    intro E h1 _
    simp only [projectFrom, List.filter_nil, remains]
    rw [total_congr (q := fun _ => true) _ (fun e he => by simpa using h1 e he)]
  | cons d l ih =>
    intro E h1 h2
    obtain ⟨hd, hl'⟩ := List.pairwise_cons.1 hl
    by_cases hp : d.exDate ≤ date
    · simp only [projectFrom]
      rw [ih hl', List.filter_cons_of_pos (by simpa using hp), remains]
      · congr 1
        rw [total_append, total_single, if_pos rfl]
        unfold amount
        rw [total_congr (q := fun _ => true) (p := (· < d.exDate)) _ (fun e he => by simpa using h2 e he d (by simp))]
        rw [div_eq_mul_inv, ← Real.exp_neg, neg_sub]
        ring
      · intro e he
        rcases List.mem_append.1 he with he | he
        · exact h1 e he
        · rw [List.mem_singleton] at he
          subst he
          exact hp
      · intro e he x hx
        rcases List.mem_append.1 he with he | he
        · exact h2 e he x (by simp [hx])
        · rw [List.mem_singleton] at he
          subst he
          exact hd x hx
    · have hout : ∀ e ∈ d :: l, ¬ e.exDate ≤ date := by
        intro e he
        rcases List.mem_cons.1 he with rfl | he
        · exact hp
        · have := hd e he
          omega
      rw [total_projectFrom_none _ _ _ _ (fun e he => by simpa using hout e he),
        List.filter_eq_nil_iff.2 (fun e he => by simpa using hout e he), remains,
        total_congr (q := fun _ => true) _ (fun e he => by simpa using h1 e he)]

variable {baseDate : Int} {spot : ℝ} {settlement : Int → Int} {rate borrow : RateCurve} {divs : DividendStream} {hwm : Int} {f : EquityForward}
  {g : Int → ℝ}

/-- C26, the whole forward. If no two dividends go ex on one date, and none on the base date, the forward to a date is what remains of the spot
after the dividends that have gone ex by then, with interest to the date of settlement. -/
theorem C26_remains (hg : Financing rate borrow g)
    (h : EquityForward.new baseDate spot settlement rate borrow divs hwm = .ok f)
    (ho : divs.dividends.Pairwise (fun a b => a.exDate < b.exDate)) (hb : ∀ d ∈ divs.dividends, d.exDate ≠ baseDate) {date : Int} (hm : date ≤ hwm)
    (hy : Accrued divs.divYield (settlement date) 0) :
    f.forward date = .ok (remains g baseDate (spot * Real.exp (g baseDate - g (settlement baseDate)))
      (divs.dividends.filter fun d => decide (baseDate < d.exDate) && decide (d.exDate ≤ date)) * Real.exp (g (settlement date) - g baseDate)) := by
  obtain ⟨e1, e2, e3, e4, e5, e6, e7⟩ := new_parts hg h
  have hmark := mark_of_bootstrap e7
  have hsum := (C24_from_base_partial (discounts hg baseDate) (ho.imp fun h => h.le) hb e7 (to_ := date) (by omega)).2
  rw [forward_eq (g := g) (by rw [e2, e3]; exact hg) hsum (by rw [e1, e4]; exact hy), e6, e1]
  unfold project
  rw [remains_eq g baseDate date _ _ (ho.filter _) [] (by simp) (by simp), List.filter_filter, e5,
    show total (·.pv) (fun _ => true) ([] : List (Projected ℝ)) = 0 by simp [total], sub_zero]
  rw [show (fun d : Dividend ℝ => decide (d.exDate ≤ date) && decide (baseDate < d.exDate)) =
    fun d => decide (baseDate < d.exDate) && decide (d.exDate ≤ date) from funext fun d => Bool.and_comm _ _]
  congr 3
  ring

/-- C26. Across the ex-date of a dividend the forward drops by its cash and by its fraction of the forward to the ex-date, both with interest from
the payment date. -/
theorem C26_drop (hg : Financing rate borrow g)
    (h : EquityForward.new baseDate spot settlement rate borrow divs hwm = .ok f)
    (ho : divs.dividends.Pairwise (fun a b => a.exDate < b.exDate)) (hb : ∀ d ∈ divs.dividends, d.exDate ≠ baseDate)
    {pre post : List (Dividend ℝ)} {d : Dividend ℝ} (hl : divs.dividends = pre ++ d :: post)
    (hbd : baseDate < d.exDate) {a b : Int} (hab : a < d.exDate ∧ d.exDate ≤ b)
    (hpre : ∀ e ∈ pre, e.exDate ≤ a) (hpost : ∀ e ∈ post, b < e.exDate)
    (hm : b ≤ hwm) (hya : Accrued divs.divYield (settlement a) 0) (hyb : Accrued divs.divYield (settlement b) 0) :
    ∃ fa, f.forward a = .ok fa ∧
      f.forward b = .ok (fa * Real.exp (g (settlement b) - g (settlement a))
        - (d.cash + d.relative * (fa * Real.exp (g d.exDate - g (settlement a)))) * Real.exp (g (settlement b) - g d.payDate)) := by
  refine ⟨_, C26_remains hg h ho hb (by omega) hya, ?_⟩
  rw [C26_remains hg h ho hb hm hyb]
  have hA : (divs.dividends.filter fun d => decide (baseDate < d.exDate) && decide (d.exDate ≤ a)) = pre.filter fun d => decide (baseDate < d.exDate) := by
    rw [hl, List.filter_append, (List.filter_eq_nil_iff (l := d :: post)).2, List.append_nil]
    · refine List.filter_congr fun e he => ?_
      simp [hpre e he]
    · intro e he
      rcases List.mem_cons.1 he with rfl | he
      · simp; omega
      · have := hpost e he
        simp; omega
  have hB : (divs.dividends.filter fun d => decide (baseDate < d.exDate) && decide (d.exDate ≤ b)) = (pre.filter fun d => decide (baseDate < d.exDate)) ++ [d] := by
    rw [hl, List.filter_append, List.filter_cons_of_pos (by simpa using ⟨hbd, hab.2⟩), (List.filter_eq_nil_iff (l := post)).2]
    · congr 1
      refine List.filter_congr fun e he => ?_
      have := hpre e he
      simp; omega
    · intro e he
      have := hpost e he
      simp; omega
  have happ : ∀ (l : List (Dividend ℝ)) (v : ℝ), remains g baseDate v (l ++ [d]) = remains g baseDate (remains g baseDate v l) [d] := by
    intro l
    induction l with
    | nil => intro v; rfl
    | cons e l ih => intro v; simp only [List.cons_append, remains]; rw [ih]; rfl
  rw [hA, hB, happ, remains, remains]
  congr 1
  generalize remains g baseDate _ _ = R
  have k1 : Real.exp (g (settlement b) - g baseDate) = Real.exp (g (settlement a) - g baseDate) * Real.exp (g (settlement b) - g (settlement a)) := by
    rw [← Real.exp_add]; congr 1; ring
  have k2 : Real.exp (g d.exDate - g baseDate) = Real.exp (g (settlement a) - g baseDate) * Real.exp (g d.exDate - g (settlement a)) := by
    rw [← Real.exp_add]; congr 1; ring
  have k3 : Real.exp (g (settlement b) - g d.payDate) = Real.exp (g baseDate - g d.payDate) * Real.exp (g (settlement b) - g baseDate) := by
    rw [← Real.exp_add]; congr 1; ring
  rw [k3, k2, k1]
  ring

/-- C26: five in cash and then a tenth of the share: the forward falls from 100 to 95 and then to 85.5. -/
example : ∃ f, EquityForward.new 0 100 (· + 2) (.zero 0) (.zero 0) (.new [⟨5, 0, 10, 12⟩, ⟨0, 0.1, 20, 25⟩] (.zero 0)) 40 = .ok f ∧
    f.forward 10 = .ok 95 ∧ f.forward 20 = .ok 85.5 := by
  set ds : DividendStream := .new [⟨5, 0, 10, 12⟩, ⟨0, 0.1, 20, 25⟩] (.zero 0)
  have hg := financing_zero 0 0
  have hb : ∀ d ∈ ds.dividends, d.exDate ≠ 0 := by simp [ds, DividendStream.new]
  have ho : ds.dividends.Pairwise (fun a b => a.exDate < b.exDate) := by simp [ds, DividendStream.new]
  obtain ⟨b, hbt, _⟩ := bootstrap_ok (dividends := ds.dividends) (lastCash := ds.lastCash) (yieldIsZero := true)
    (yieldBase := 0) (spot := (100 : ℝ) * Real.exp (-(0 : ℝ) - -0)) (base := 0) (hwm := 40) (discounts hg 0)
    (ho.imp fun h => h.le) hb (Or.inl rfl)
  have hf : ∃ f, EquityForward.new 0 100 (· + 2) (.zero 0) (.zero 0) ds 40 = .ok f := by
    unfold EquityForward.new
    rw [logDiscount_eq hg]
    simp only [Bind.bind, Except.bind, discount_eq hg]
    have : bootstrapStream ds (.zero 0) (.zero 0) ((100 : ℝ) * Real.exp (-(0 : ℝ) - -0)) 0 40 = .ok b := hbt
    rw [this]
    exact ⟨_, rfl⟩
  obtain ⟨f, hf⟩ := hf
  refine ⟨f, hf, ?_, ?_⟩
  · rw [C26_remains hg hf ho hb (by norm_num) (zero_rt _ _)]
    norm_num [ds, DividendStream.new, remains]
  · rw [C26_remains hg hf ho hb (by norm_num) (zero_rt _ _)]
    norm_num [ds, DividendStream.new, remains]

end QM.Forward

namespace QM.Risk.Spec
open QM.Interp QM.Curves QM.Vol QM.Instruments QM.Instruments.Spec QM.Market QM.Market.Spec QM.Dividends QM.Dividends.Spec QM.Forward.Spec

/-- An equity with spot `S` that pays the dividends `ds`, of either kind, at most one a day and none on the spot date, in a market whose rate of its credit
accrues to `r` and whose cost of borrow accrues to `q`. There is no dividend yield, and the curve that says so starts after the last dividend. -/
structure PaysOut (md : MarketData) (id credit : String) (S : ℝ) (r q : Int → ℝ) (ds : DividendStream) : Prop where
  spot : md.spots.get id = some S
  rates : ∃ yc, md.yieldCurves.get credit = some yc ∧ ∀ d, yc.rt d = .ok (.val (r d))
  borrow : ∃ b, md.borrowCurves.get id = some b ∧ ∀ d, b.rt d = .ok (.val (q d))
  dividends : md.dividends.get id = some ds
  order : ds.dividends.Pairwise (fun a b => a.exDate < b.exDate)
  noYield : ∀ d, Accrued ds.divYield d 0
  dates : ∀ e ∈ ds.dividends, e.exDate ≠ md.spotDate ∧ e.exDate ≤ ds.divYield.baseDate

/-- Enlarged by the fraction `b`, none of the dividends between the dates is negative or more than the whole share. -/
def Modest (ds : List (Dividend ℝ)) (from_ to_ : Int) (g : Int → ℝ) (b : ℝ) : Prop :=
  -1 ≤ b ∧ ∀ e ∈ ds, from_ < e.exDate → e.exDate ≤ to_ → e.relative * (1 + b) * Real.exp (g e.exDate - g e.payDate) ≤ 1

end QM.Risk.Spec

namespace QM.Risk
open QM.Interp QM.Curves QM.Curves.Spec QM.Vol QM.Fixings QM.Instruments QM.Instruments.Spec QM.Market QM.Market.Spec QM.Risk.Spec QM.Dividends
open QM.Dividends.Spec (InOrder Projected total projectFrom project amount)
open QM.Forward.Spec (Accrued remains)

variable {fuel : Nat} {md : MarketData} {v : Vanilla} {id credit : String} {settle : Int → Int} {K S w : ℝ} {r q : Int → ℝ} {ds : DividendStream}

/-- The dividends enlarged by the fraction `b`. -/
def enlarged (b : ℝ) (l : List (Dividend ℝ)) : List (Dividend ℝ) := l.map fun d => ⟨d.cash * (1 + b), d.relative * (1 + b), d.exDate, d.payDate⟩

theorem remains_step (g : Int → ℝ) (now : Int) (R : ℝ) (d : Dividend ℝ) (l : List (Dividend ℝ)) (b : ℝ) :
    remains g now R (enlarged b (d :: l)) =
      remains g now (R * (1 - d.relative * (1 + b) * Real.exp (g d.exDate - g d.payDate)) - d.cash * (1 + b) * Real.exp (g now - g d.payDate)) (enlarged b l) := by
  simp only [enlarged, List.map_cons, remains]
  congr 1
  have : Real.exp (g d.exDate - g d.payDate) = Real.exp (g d.exDate - g now) * Real.exp (g now - g d.payDate) := by
    rw [← Real.exp_add]; congr 1; ring
  rw [this]
  ring

/-- Dividends that are not negative and not more than the share, as far as they matter. -/
def Moderate (g : Int → ℝ) (b : ℝ) (l : List (Dividend ℝ)) : Prop :=
  ∀ e ∈ l, 0 ≤ e.cash ∧ 0 ≤ e.relative ∧ e.relative * (1 + b) * Real.exp (g e.exDate - g e.payDate) ≤ 1

theorem remains_pos {g : Int → ℝ} {now : Int} {b : ℝ} (hb : -1 ≤ b) (l : List (Dividend ℝ)) (hl : Moderate g b l) :
    ∀ R, 0 < remains g now R (enlarged b l) → 0 < R := by
  induction l with
  | nil => intro R h; exact h
  | cons d l ih =>
    intro R h
    obtain ⟨h1, h2, h3⟩ := hl d (by simp)
    rw [remains_step] at h
    have h' := ih (fun e he => hl e (by simp [he])) _ h
    have hc : 0 ≤ d.cash * (1 + b) * Real.exp (g now - g d.payDate) := mul_nonneg (mul_nonneg h1 (by linarith)) (Real.exp_pos _).le
    by_contra hR
    have := mul_nonneg (show 0 ≤ -R by linarith) (show 0 ≤ 1 - d.relative * (1 + b) * Real.exp (g d.exDate - g d.payDate) by linarith)
    nlinarith

/-- Of larger dividends less remains. -/
theorem remains_anti {g : Int → ℝ} {now : Int} {b b' : ℝ} (hb : -1 ≤ b) (hbb : b < b') (l : List (Dividend ℝ)) (hl : Moderate g b' l) :
    ∀ R R', R' ≤ R → 0 < remains g now R' (enlarged b' l) →
      remains g now R' (enlarged b' l) ≤ remains g now R (enlarged b l) ∧
      (R' < R ∨ (∃ e ∈ l, 0 < e.cash ∨ 0 < e.relative) → remains g now R' (enlarged b' l) < remains g now R (enlarged b l)) := by
  induction l with
  | nil =>
    intro R R' h _
    refine ⟨h, ?_⟩
    rintro (h | ⟨e, he, _⟩)
    · exact h
    · cases he
  | cons d l ih =>
    intro R R' hR hpos
    have hR' := remains_pos (by linarith) _ hl R' hpos
    obtain ⟨h1, h2, h3⟩ := hl d (by simp)
    rw [remains_step] at hpos
    rw [remains_step, remains_step]
    have hk := Real.exp_pos (g d.exDate - g d.payDate)
    have hc := Real.exp_pos (g now - g d.payDate)
    set k := Real.exp (g d.exDate - g d.payDate)
    set c := Real.exp (g now - g d.payDate)
    -- the factors that remain
    have a1 : d.relative * (1 + b) * k ≤ d.relative * (1 + b') * k := by
      have := mul_nonneg (mul_nonneg h2 (show 0 ≤ b' - b by linarith)) hk.le
      nlinarith
    have a2 : d.cash * (1 + b) * c ≤ d.cash * (1 + b') * c := by
      have := mul_nonneg (mul_nonneg h1 (show 0 ≤ b' - b by linarith)) hc.le
      nlinarith
    have a3 : 0 < 1 - d.relative * (1 + b) * k := by
      rcases h2.eq_or_lt with h0 | h0
      · rw [← h0]; norm_num
      · have := mul_pos (mul_pos h0 (show 0 < b' - b by linarith)) hk
        nlinarith
    have a4 : R' * (1 - d.relative * (1 + b') * k) ≤ R' * (1 - d.relative * (1 + b) * k) := mul_le_mul_of_nonneg_left (by linarith) hR'.le
    have a5 : R' * (1 - d.relative * (1 + b) * k) ≤ R * (1 - d.relative * (1 + b) * k) := mul_le_mul_of_nonneg_right hR a3.le
    obtain ⟨i1, i2⟩ := ih (fun e he => hl e (by simp [he])) (R * (1 - d.relative * (1 + b) * k) - d.cash * (1 + b) * c)
      (R' * (1 - d.relative * (1 + b') * k) - d.cash * (1 + b') * c) (by linarith) hpos
    refine ⟨i1, fun hs => i2 ?_⟩
    rcases hs with hs | ⟨e, he, hs⟩
    · have := mul_lt_mul_of_pos_right hs a3
      exact .inl (by linarith)
    · rcases List.mem_cons.1 he with rfl | he
      · rcases hs with hs | hs
        · have := mul_pos (mul_pos hs (show 0 < b' - b by linarith)) hc
          exact .inl (by nlinarith)
        · have := mul_pos hR' (mul_pos (mul_pos hs (show 0 < b' - b by linarith)) hk)
          exact .inl (by nlinarith)
      · exact .inr ⟨e, he, hs⟩

/-- The forward of such an equity. -/
theorem paysOut_forward (h : PaysOut md id credit S r q ds) (settle : Int → Int) (hwm : Int) :
    ∃ f, md.equityForward (.equity id credit settle) hwm = .ok f ∧ ∀ d, d ≤ hwm →
      f.forward d = .ok (remains (fun d => r d - q d) md.spotDate (S * Real.exp ((r md.spotDate - q md.spotDate) - (r (settle md.spotDate) - q (settle md.spotDate))))
        (ds.dividends.filter fun e => decide (md.spotDate < e.exDate) && decide (e.exDate ≤ d)) *
          Real.exp ((r (settle d) - q (settle d)) - (r md.spotDate - q md.spotDate))) := by
  obtain ⟨yc, y1, y2⟩ := h.rates
  obtain ⟨b, b1, b2⟩ := h.borrow
  have hg : Forward.Spec.Financing yc b (fun d => r d - q d) := fun d => ⟨r d, q d, y2 d, b2 d, rfl⟩
  have hne : ∀ e ∈ ds.dividends, e.exDate ≠ md.spotDate := fun e he => (h.dates e he).1
  obtain ⟨boot, hboot, _⟩ := Dividends.bootstrap_ok (lastCash := ds.lastCash) (yieldIsZero := ds.divYield.isZero) (yieldBase := ds.divYield.baseDate)
    (spot := S * Real.exp (-(r (settle md.spotDate) - q (settle md.spotDate)) - -(r md.spotDate - q md.spotDate))) (hwm := hwm) (Forward.discounts hg md.spotDate)
    (h.order.imp fun h => h.le) hne (.inr fun e he => (h.dates e (List.mem_of_getLast? he)).2)
  have hnew : ∃ f, Forward.EquityForward.new md.spotDate S settle yc b ds hwm = .ok f := by
    unfold Forward.EquityForward.new Forward.bootstrapStream
    rw [Forward.logDiscount_eq hg]
    simp only [Bind.bind, Except.bind, Forward.discount_eq hg]
    rw [hboot]
    exact ⟨_, rfl⟩
  obtain ⟨f, hf⟩ := hnew
  refine ⟨f, ?_, fun d hd => Forward.C26_remains hg hf h.order hne hd (h.noYield _)⟩
  rw [equityForward_of (i := .equity id credit settle) h.spot h.dividends b1 y1]
  exact hf

theorem paysOut_bump (h : PaysOut md id credit S r q ds) (b : ℝ) :
    PaysOut (withDivs md id ((BumpDivs.bumpAllRelative b).apply ds)) id credit S r q ((BumpDivs.bumpAllRelative b).apply ds) := by
  refine ⟨h.spot, h.rates, h.borrow, by unfold withDivs; exact Map.get_insert_self .., ?_, ?_, ?_⟩
  · rw [C28_explicit, List.pairwise_map]
    exact h.order
  · intro d
    obtain ⟨x, t, h1, h2⟩ := rAndT_of_rt (h.noYield d)
    have h3 : ((BumpDivs.bumpAllRelative b).apply ds).divYield.rAndT d = .ok (.val (x * b), t) := by
      unfold BumpDivs.apply DividendStream.newBumpAll RateCurve.newRelativeBump
      simp only
      rw [RateCurve.rAndT, h1]
      rfl
    show ((BumpDivs.bumpAllRelative b).apply ds).divYield.rt d = _
    rw [rt_of_rAndT h3]
    congr 2
    linear_combination b * h2
  · intro e he
    rw [C28_explicit, List.mem_map] at he
    obtain ⟨e', h1, rfl⟩ := he
    exact h.dates e' h1

theorem enlarged_filter (b : ℝ) (l : List (Dividend ℝ)) (p : Int → Bool) :
    ((l.map fun d => (⟨d.cash * (1 + b), d.relative * (1 + b), d.exDate, d.payDate⟩ : Dividend ℝ)).filter fun e => p e.exDate) =
      enlarged b (l.filter fun e => p e.exDate) := by
  unfold enlarged
  rw [List.filter_map]
  rfl

theorem enlarged_zero (l : List (Dividend ℝ)) : enlarged 0 l = l := by
  unfold enlarged
  simp

/-- The forward after a bump, as a function of the bump. -/
noncomputable def bumpedForward (md : MarketData) (S : ℝ) (r q : Int → ℝ) (ds : List (Dividend ℝ)) (settle : Int → Int) (d : Int) (b : ℝ) : ℝ :=
  remains (fun d => r d - q d) md.spotDate (S * Real.exp ((r md.spotDate - q md.spotDate) - (r (settle md.spotDate) - q (settle md.spotDate))))
    (enlarged b (ds.filter fun e => decide (md.spotDate < e.exDate) && decide (e.exDate ≤ d))) *
    Real.exp ((r (settle d) - q (settle d)) - (r md.spotDate - q md.spotDate))

theorem bumpedForward_anti {d : Int} (hsign : ∀ e ∈ ds.dividends, 0 ≤ e.cash ∧ 0 ≤ e.relative)
    (hsome : ∃ e ∈ ds.dividends, md.spotDate < e.exDate ∧ e.exDate ≤ d ∧ (0 < e.cash ∨ 0 < e.relative)) :
    StrictAntiOn (bumpedForward md S r q ds.dividends settle d)
      {b | Modest ds.dividends md.spotDate d (fun d => r d - q d) b ∧ 0 < bumpedForward md S r q ds.dividends settle d b} := by
  rintro b ⟨⟨hb, _⟩, _⟩ b' ⟨⟨_, hm⟩, hpos⟩ hlt
  unfold bumpedForward at hpos ⊢
  have he := Real.exp_pos ((r (settle d) - q (settle d)) - (r md.spotDate - q md.spotDate))
  refine mul_lt_mul_of_pos_right ((remains_anti hb hlt _ ?_ _ _ le_rfl (pos_of_mul_pos_left hpos he.le)).2 (.inr ?_)) he
  · intro e he
    obtain ⟨m1, m2⟩ := List.mem_filter.1 he
    simp only [Bool.and_eq_true, decide_eq_true_eq] at m2
    exact ⟨(hsign e m1).1, (hsign e m1).2, hm e m1 m2.1 m2.2⟩
  · obtain ⟨e, h1, h2, h3, h4⟩ := hsome
    exact ⟨e, List.mem_filter.2 ⟨h1, by simpa using ⟨h2, h3⟩⟩, h4⟩

theorem bumpedForward_ok (h : PaysOut md id credit S r q ds) (settle : Int → Int) {d hwm : Int} (hd : d ≤ hwm) (b : ℝ) :
    ∃ f, (withDivs md id ((BumpDivs.bumpAllRelative b).apply ds)).equityForward (.equity id credit settle) hwm = .ok f ∧
      f.forward d = .ok (bumpedForward md S r q ds.dividends settle d b) := by
  obtain ⟨f, h1, h2⟩ := paysOut_forward (paysOut_bump h b) settle hwm
  refine ⟨f, h1, ?_⟩
  rw [h2 d hd, C28_explicit]
  have := enlarged_filter b ds.dividends fun x => decide (md.spotDate < x) && decide (x ≤ d)
  unfold bumpedForward
  rw [← this]
  rfl

theorem bumpedForward_zero (h : PaysOut md id credit S r q ds) (settle : Int → Int) {d hwm : Int} (hd : d ≤ hwm) :
    ∃ f, md.equityForward (.equity id credit settle) hwm = .ok f ∧ f.forward d = .ok (bumpedForward md S r q ds.dividends settle d 0) := by
  obtain ⟨f, h1, h2⟩ := paysOut_forward h settle hwm
  refine ⟨f, h1, ?_⟩
  rw [h2 d hd]
  unfold bumpedForward
  rw [enlarged_zero]

/-! ## C101 -/

/-- C101, the forward of a share with dividends in cash, relative dividends, or both: the larger the dividends, the lower the forward, as long as they leave
something of the share. Missing are two dividends on one day, and the streams of `C101_rejected`. -/
theorem C101_mixed_forward_partial (h : PaysOut md id credit S r q ds) (settle : Int → Int) {d hwm : Int} (hd : d ≤ hwm)
    (hsign : ∀ e ∈ ds.dividends, 0 ≤ e.cash ∧ 0 ≤ e.relative)
    (hsome : ∃ e ∈ ds.dividends, md.spotDate < e.exDate ∧ e.exDate ≤ d ∧ (0 < e.cash ∨ 0 < e.relative)) :
    ∃ (f₀ : Forward.EquityForward) (F : ℝ → ℝ), md.equityForward (.equity id credit settle) hwm = .ok f₀ ∧ f₀.forward d = .ok (F 0) ∧
      (∀ b, ∃ f, (withDivs md id ((BumpDivs.bumpAllRelative b).apply ds)).equityForward (.equity id credit settle) hwm = .ok f ∧ f.forward d = .ok (F b)) ∧
      StrictAntiOn F {b | Modest ds.dividends md.spotDate d (fun d => r d - q d) b ∧ 0 < F b} := by
  obtain ⟨f₀, h1, h2⟩ := bumpedForward_zero h settle hd
  exact ⟨f₀, bumpedForward md S r q ds.dividends settle d, h1, h2, bumpedForward_ok h settle hd, bumpedForward_anti hsign hsome⟩

/-- C101, options on a share with dividends of either kind: a call is worth the less, and a put the more, the larger the dividends, as long as
they leave something of the share. -/
theorem C101_mixed_options_partial (h : PaysOut md id credit S r q ds) (hq : Quoted fuel md v id credit settle K w) (hK : 0 < K) (hw : 0 < w)
    (hsign : ∀ e ∈ ds.dividends, 0 ≤ e.cash ∧ 0 ≤ e.relative)
    (hsome : ∃ e ∈ ds.dividends, md.spotDate < e.exDate ∧ e.exDate ≤ v.expiry.date ∧ (0 < e.cash ∨ 0 < e.relative)) (kind : PutOrCall)
    {f₀ : Forward.EquityForward} {F₀ : ℝ} (hf : md.equityForward (.equity id credit settle) v.expiry.date = .ok f₀) (hF : f₀.forward v.expiry.date = .ok F₀) (hF0 : 0 < F₀) :
    ∃ (p : SelfPricer) (F x : ℝ → ℝ), SelfPricer.new [(1, euro kind v id credit settle K)] md = .ok p ∧ p.price fuel = .ok (.val (x 0)) ∧ F 0 = F₀ ∧
      (∀ b, ∃ f, (withDivs md id ((BumpDivs.bumpAllRelative b).apply ds)).equityForward (.equity id credit settle) v.expiry.date = .ok f ∧
        f.forward v.expiry.date = .ok (F b)) ∧
      (∀ b save, 0 < F b → ∃ p' save', p.bump (.divs id (.bumpAllRelative b)) save = (.ok true, p', save') ∧ p'.price fuel = .ok (.val (x b))) ∧
      match kind with
      | .call => StrictAntiOn x {b | Modest ds.dividends md.spotDate v.expiry.date (fun d => r d - q d) b ∧ 0 < F b}
      | .put => StrictMonoOn x {b | Modest ds.dividends md.spotDate v.expiry.date (fun d => r d - q d) b ∧ 0 < F b} := by
  set F := bumpedForward md S r q ds.dividends settle v.expiry.date with hFdef
  set D := Real.exp (r (settle md.spotDate) - r v.payDate)
  have hD : 0 < D := Real.exp_pos _
  have hs := Real.sqrt_pos.2 hw
  have hval : ∀ {md' : MarketData} {ds' : DividendStream} {F' : ℝ} {f : Forward.EquityForward}, PaysOut md' id credit S r q ds' →
      Quoted fuel md' v id credit settle K w → md'.spotDate = md.spotDate → md'.equityForward (.equity id credit settle) v.expiry.date = .ok f →
      f.forward v.expiry.date = .ok F' → 0 < F' →
      value fuel [(1, euro kind v id credit settle K)] md' = .ok (.val (D * blackValue kind F' K (Real.sqrt w))) := by
    intro md' ds' F' f h' hq' hsd hf hfwd hpos
    obtain ⟨yc, y1, y2⟩ := h'.rates
    obtain ⟨vol, s1, s2, s3⟩ := hq'.surface
    have hf : md'.forwardCurve (.equity id credit settle) v.expiry.date = .ok (asFwd f) := by
      unfold MarketData.forwardCurve
      rw [hf]
      rfl
    have hfwd : (asFwd f).forward v.expiry.date = .ok (.val F') := by
      unfold asFwd
      dsimp only
      rw [hfwd]
      rfl
    rw [option_value 1 kind hq'.ahead hf hfwd y1 (y2 _) (by rw [hq'.settles]; exact y2 _) s1 s2 s3 (by linarith) hw.le, sub_zero, add_zero,
      formula_black hpos hK hs, hsd]
    simp [num1, D]
  obtain ⟨f₁, k1, k2⟩ := bumpedForward_zero h settle (le_refl v.expiry.date)
  rw [hf] at k1
  injection k1 with k1
  subst k1
  rw [hF] at k2
  injection k2 with k2
  have h0 := hval h hq rfl hf hF hF0
  have hb : ∀ b, 0 < F b → value fuel [(1, euro kind v id credit settle K)] (withDivs md id ((BumpDivs.bumpAllRelative b).apply ds)) =
      .ok (.val (D * blackValue kind (F b) K (Real.sqrt w))) := by
    intro b hb
    obtain ⟨f, j1, j2⟩ := bumpedForward_ok h settle (le_refl v.expiry.date) b
    exact hval (paysOut_bump h b) ⟨hq.ahead, hq.pays, hq.settles, hq.surface⟩ rfl j1 j2 hb
  obtain ⟨p, p1, p2⟩ := value_new h0
  have hanti := bumpedForward_anti (md := md) (S := S) (r := r) (q := q) (settle := settle) hsign hsome
  refine ⟨p, F, fun b => D * blackValue kind (F b) K (Real.sqrt w), p1, ?_, k2.symm, bumpedForward_ok h settle le_rfl,
    fun b save hlt => option_bump_divs p1 h.dividends (hb b hlt) save, ?_⟩
  · rw [p2, k2]
  · cases kind
    · intro a ha b hb hab
      exact mul_lt_mul_of_pos_left (black_strike_lt hK hs hb.2 (hanti ha hb hab)) hD
    · intro a ha b hb hab
      exact mul_lt_mul_of_pos_left (black_forward_lt hK hs hb.2 (hanti ha hb hab)) hD

/-! ## A case -/

/-- The sample market with five in cash on day 5 and a tenth of the share on day 8. -/
noncomputable def mixedMarket : MarketData :=
  withDivs (withVol (sampleMarket 100 (.zero 0)) "A" (.flat (.val 0.2) .everyDay (0, 0))) "A" (.new [⟨5, 0, 5, 7⟩, ⟨0, 0.1, 8, 9⟩] (.zero 8))

theorem mixed_case : PaysOut mixedMarket "A" "C" 100 (fun _ => 0) (fun _ => 0) (.new [⟨5, 0, 5, 7⟩, ⟨0, 0.1, 8, 9⟩] (.zero 8)) ∧
    Quoted fuel mixedMarket (dayTerms 10) "A" "C" _root_.id 90 (0.2 ^ 2 * (10 / 365)) := by
  refine ⟨⟨rfl, ⟨_, rfl, Forward.zero_rt 0⟩, ⟨_, rfl, Forward.zero_rt 0⟩, rfl, by simp [DividendStream.new], Forward.zero_rt 8, ?_⟩, ?_⟩
  · intro e he
    have he : e ∈ [(⟨5, 0, 5, 7⟩ : Dividend ℝ), ⟨0, 0.1, 8, 9⟩] := he
    simp only [List.mem_cons, List.not_mem_nil, or_false] at he
    rcases he with rfl | rfl
    · exact ⟨by show (5 : Int) ≠ 0; norm_num, by show (5 : Int) ≤ 8; norm_num⟩
    · exact ⟨by show (8 : Int) ≠ 0; norm_num, by show (8 : Int) ≤ 8; norm_num⟩
  · refine ⟨by show (0 : Int) < 10; norm_num, rfl, rfl, .flat (.val 0.2) .everyDay (0, 0), surface_today rfl rfl _, rfl, ?_⟩
    rw [later_self_zero _ (by unfold before; simp [mixedMarket, withDivs, withVol, sampleMarket])]
    exact flat_forward.2 (.inl ⟨before_irrefl _, _, everyDay_year 10, by norm_num⟩)

/-- C101: half as much again of both dividends lowers the forward from 85.5 to 78.625, and the put becomes dearer. -/
example : ∃ p x p' s' x', SelfPricer.new [(1, euro .put (dayTerms 10) "A" "C" _root_.id 90)] mixedMarket = .ok p ∧ p.price fuel = .ok (.val x) ∧
    p.bump (.divs "A" (.bumpAllRelative 0.5)) none = (.ok true, p', s') ∧ p'.price fuel = .ok (.val x') ∧ x < x' := by
  obtain ⟨h, hq⟩ := mixed_case (fuel := fuel)
  have hF : ∀ b, bumpedForward mixedMarket 100 (fun _ => 0) (fun _ => 0) (DividendStream.new [⟨5, 0, 5, 7⟩, ⟨0, 0.1, 8, 9⟩] (.zero 8)).dividends _root_.id 10 b =
      (100 - 5 * (1 + b)) * (1 - 0.1 * (1 + b)) := by
    intro b
    have hl : (DividendStream.new [⟨5, 0, 5, 7⟩, ⟨0, 0.1, 8, 9⟩] (.zero 8)).dividends.filter (fun e : Dividend ℝ => decide (mixedMarket.spotDate < e.exDate) && decide (e.exDate ≤ 10)) =
        [⟨5, 0, 5, 7⟩, ⟨0, 0.1, 8, 9⟩] := by
      rw [show mixedMarket.spotDate = 0 from rfl]
      simp [DividendStream.new]
    unfold bumpedForward
    rw [hl]
    simp only [enlarged, List.map_cons, List.map_nil, remains, sub_self, Real.exp_zero, mul_one]
    ring
  obtain ⟨f₀, f1, f2⟩ := bumpedForward_zero h _root_.id (le_refl (10 : Int))
  rw [hF] at f2
  obtain ⟨p, F, x, h1, h2, h3, h4, h5, h6⟩ := C101_mixed_options_partial h hq (by norm_num) (by norm_num) (by
      intro e he
      have he : e ∈ [(⟨5, 0, 5, 7⟩ : Dividend ℝ), ⟨0, 0.1, 8, 9⟩] := he
      simp only [List.mem_cons, List.not_mem_nil, or_false] at he
      rcases he with rfl | rfl <;> norm_num)
    ⟨⟨5, 0, 5, 7⟩, by simp [DividendStream.new], by show (0 : Int) < 5; norm_num, by show (5 : Int) ≤ 10; norm_num, .inl (by norm_num)⟩ .put f1 f2 (by norm_num)
  have hFF : ∀ b, F b = (100 - 5 * (1 + b)) * (1 - 0.1 * (1 + b)) := by
    intro b
    obtain ⟨f, g1, g2⟩ := h4 b
    obtain ⟨f', g3, g4⟩ := bumpedForward_ok h _root_.id (le_refl (10 : Int)) b
    have g1' := g1.symm.trans g3
    injection g1' with g1'
    subst g1'
    have g2' := g2.symm.trans g4
    injection g2' with g2'
    rw [g2', hF]
  have hm : ∀ b : ℝ, -1 ≤ b → b ≤ 1 → Modest (DividendStream.new [⟨5, 0, 5, 7⟩, ⟨0, 0.1, 8, 9⟩] (.zero 8)).dividends mixedMarket.spotDate (dayTerms 10).expiry.date
      (fun _ => (0 : ℝ) - 0) b := by
    intro b hb hb'
    refine ⟨hb, ?_⟩
    intro e he _ _
    have he : e ∈ [(⟨5, 0, 5, 7⟩ : Dividend ℝ), ⟨0, 0.1, 8, 9⟩] := he
    simp only [List.mem_cons, List.not_mem_nil, or_false] at he
    rcases he with rfl | rfl <;> norm_num
    linarith
  obtain ⟨p', s', h7, h8⟩ := h5 0.5 none (by rw [hFF]; norm_num)
  exact ⟨p, _, p', s', _, h1, h2, h7, h8, h6 ⟨hm 0 (by norm_num) (by norm_num), by rw [hFF]; norm_num⟩
    ⟨hm 0.5 (by norm_num) (by norm_num), by rw [hFF]; norm_num⟩ (by norm_num)⟩

end QM.Risk
