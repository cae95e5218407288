import Verif.Instruments.Lemmas
import Verif.Curves.Props
import Verif.Forward.Lemmas

/-!
# Properties C40 and C43: baskets and portfolios
-/

namespace QM.Instruments
open QM.Interp QM.Vol QM.Fixings Spec
open QM.Curves (RateCurve)

variable {fuel : Nat} {ctx : PricingContext} {dates : List DateTime}

/-! ## C40 -/

/-- C40. A basket has prices exactly when all its components have, and its price on each date is the weighted sum of
theirs on that date. -/
theorem C40_sum {id creditId : String} {settlement : Int → Int} {parts : List (ℝ × Instrument)} {out : List (Num ℝ)} :
    (Instrument.basket id creditId settlement parts).prices fuel ctx dates = .ok out ↔
      ∃ values, List.Forall₂ (fun p v => p.2.prices fuel ctx dates = .ok v) parts values ∧ out.length = dates.length ∧
        ∀ j < dates.length, out.getD j .nan =
          weightedSum (List.zipWith (fun p v => (p.1, v.getD j .nan)) parts values) := by
  rw [Instrument.prices, basketPrices_iff parts (by simp)]
  have hz : ∀ j < dates.length, ∀ x : Num ℝ, num2 (· + ·) ((dates.map fun _ => Num.val (0 : ℝ)).getD j .nan) x = x := by
    intro j hj x
    simp only [List.getD_eq_getElem?_getD, List.getElem?_map, hj, List.getElem?_eq_getElem, Option.map_some, Option.getD_some]
    cases x <;> simp [num2]
  constructor
  · rintro ⟨values, hv, hl, hj⟩
    refine ⟨values, hv, hl, fun j hjl => ?_⟩
    rw [hj j hjl, hz j hjl]
    rfl
  · rintro ⟨values, hv, hl, hj⟩
    refine ⟨values, hv, hl, fun j hjl => ?_⟩
    rw [hj j hjl, hz j hjl]
    rfl

/-- C40. A basket fails to price exactly when a component fails, with the failure of the first component that does. -/
theorem C40_fails {id creditId : String} {settlement : Int → Int} {parts : List (ℝ × Instrument)} {e : Fault} :
    (Instrument.basket id creditId settlement parts).prices fuel ctx dates = .error e ↔
      ∃ pre w u post, parts = pre ++ (w, u) :: post ∧ (∀ p ∈ pre, ∃ v, p.2.prices fuel ctx dates = .ok v) ∧
        u.prices fuel ctx dates = .error e := by
  rw [Instrument.prices, basketPrices_error]

/-- C40 for one date: the price of a basket is the weighted sum of the prices of its components. -/
theorem C40_price {id creditId : String} {settlement : Int → Int} {parts : List (ℝ × Instrument)} {d : DateTime} {v : Num ℝ} :
    (Instrument.basket id creditId settlement parts).price fuel ctx d = .ok v ↔
      ∃ values, List.Forall₂ (fun p v => p.2.price fuel ctx d = .ok v) parts values ∧
        v = weightedSum (List.zipWith (fun p v => (p.1, v)) parts values) := by
  rw [price_iff, C40_sum]
  constructor
  · rintro ⟨values, hv, _, hj⟩
    have h0 := hj 0 (by simp)
    refine ⟨values.map (fun v => v.getD 0 .nan), ?_, ?_⟩
    · clear hj h0
      induction hv with
      | nil => exact .nil
      | @cons p v ps vs h1 h2 ih =>
        refine .cons ?_ ih
        rw [price_iff]
        have hl := prices_length p.2 h1
        match v, hl with
        | [x], _ => simpa using h1
    · simp only [List.getD_cons_zero] at h0
      rw [h0, List.zipWith_map_right]
  · rintro ⟨values, hv, rfl⟩
    refine ⟨values.map (fun v => [v]), ?_, rfl, ?_⟩
    · induction hv with
      | nil => exact .nil
      | cons h1 h2 ih => exact .cons (price_iff.1 h1) ih
    · intro j hj
      have : j = 0 := by simpa using hj
      subst this
      rw [List.zipWith_map_right]
      rfl

theorem forall2_append {α β : Type} {R : α → β → Prop} {a c : List α} {b d : List β} (h1 : List.Forall₂ R a b)
    (h2 : List.Forall₂ R c d) : List.Forall₂ R (a ++ c) (b ++ d) := by
  induction h1 with
  | nil => exact h2
  | cons h _ ih => exact .cons h ih

theorem zipWith_append_forall2 {α β γ : Type} {R : α → β → Prop} (f : α → β → γ) {a c : List α} {b d : List β}
    (h1 : List.Forall₂ R a b) : List.zipWith f (a ++ c) (b ++ d) = List.zipWith f a b ++ List.zipWith f c d := by
  induction h1 with
  | nil => rfl
  | cons h _ ih => simp [ih]

mutual
theorem nested {d : DateTime} : ∀ (i : Instrument) (w : ℝ) {v : Num ℝ}, i.price fuel ctx d = .ok v →
    ∃ values, List.Forall₂ (fun p x => p.2.price fuel ctx d = .ok x) (leaves w i) values ∧
      num2 (· * ·) v (.val w) = weightedSum (List.zipWith (fun p x => (p.1, x)) (leaves w i) values)
  | .basket id c s parts, w, v, h => by
    obtain ⟨values, hv, rfl⟩ := C40_price.1 h
    rw [leaves]
    exact nestedAll parts w hv
  | .currency id s, w, v, h => ⟨[v], .cons h .nil, by simp [leaves, weightedSum_cons, weightedSum, num2_add_zero]⟩
  | .creditEntity id s, w, v, h => ⟨[v], .cons h .nil, by simp [leaves, weightedSum_cons, weightedSum, num2_add_zero]⟩
  | .equity id c s, w, v, h => ⟨[v], .cons h .nil, by simp [leaves, weightedSum_cons, weightedSum, num2_add_zero]⟩
  | .zeroCoupon id c e p s, w, v, h => ⟨[v], .cons h .nil, by simp [leaves, weightedSum_cons, weightedSum, num2_add_zero]⟩
  | .spotStarting va u k, w, v, h => ⟨[v], .cons h .nil, by simp [leaves, weightedSum_cons, weightedSum, num2_add_zero]⟩
  | .forwardStarting va u k dd t, w, v, h =>
    ⟨[v], .cons h .nil, by simp [leaves, weightedSum_cons, weightedSum, num2_add_zero]⟩

theorem nestedAll {d : DateTime} : ∀ (parts : List (ℝ × Instrument)) (w : ℝ) {vs : List (Num ℝ)},
    List.Forall₂ (fun p v => p.2.price fuel ctx d = .ok v) parts vs →
    ∃ values, List.Forall₂ (fun p x => p.2.price fuel ctx d = .ok x) (leavesAll w parts) values ∧
      num2 (· * ·) (weightedSum (List.zipWith (fun p v => (p.1, v)) parts vs)) (.val w) =
        weightedSum (List.zipWith (fun p x => (p.1, x)) (leavesAll w parts) values)
  | [], w, vs, h => by
    cases h
    exact ⟨[], by rw [leavesAll]; exact .nil, by simp [leavesAll, weightedSum, num2]⟩
  | (x, i) :: rest, w, vs, h => by
    cases h with
    | @cons _ v _ vs h1 h2 =>
      obtain ⟨a, ha, ea⟩ := nested i (w * x) h1
      obtain ⟨b, hb, eb⟩ := nestedAll rest w h2
      refine ⟨a ++ b, by rw [leavesAll]; exact forall2_append ha hb, ?_⟩
      rw [leavesAll, zipWith_append_forall2 _ ha, weightedSum_append, ← ea, ← eb, List.zipWith_cons_cons, weightedSum_cons]
      cases v <;> cases weightedSum (List.zipWith _ rest vs) <;> simp [num2]
      ring
end

/-- C40, at any depth of nesting: the price of an instrument is the sum over the instruments inside it that are not
baskets of their prices times the products of the weights on the way to them. -/
theorem C40_nested {i : Instrument} {d : DateTime} {v : Num ℝ} (h : i.price fuel ctx d = .ok v) :
    ∃ values, List.Forall₂ (fun p x => p.2.price fuel ctx d = .ok x) (leaves 1 i) values ∧
      v = weightedSum (List.zipWith (fun p x => (p.1, x)) (leaves 1 i) values) := by
  obtain ⟨values, hv, e⟩ := nested i 1 h
  refine ⟨values, hv, ?_⟩
  rw [← e]
  cases v <;> simp [num2]

mutual
theorem nested_fails {d : DateTime} : ∀ (i : Instrument) (w : ℝ) {e : Fault}, i.price fuel ctx d = .error e →
    ∃ p ∈ leaves w i, p.2.price fuel ctx d = .error e
  | .basket id c s parts, w, e, h => by
    rw [leaves]
    have h' : (Instrument.basket id c s parts).prices fuel ctx [d] = .error e := by
      unfold Instrument.price at h
      cases hp : (Instrument.basket id c s parts).prices fuel ctx [d] with
      | error e' => rw [hp] at h; cases h; rfl
      | ok vs =>
        rw [hp] at h
        have hl := prices_length _ hp
        match vs, hl with
        | [x], _ => cases h
    obtain ⟨pre, x, u, post, rfl, _, he⟩ := C40_fails.1 h'
    exact nestedAll_fails _ w (x, u) (by simp) (by unfold Instrument.price; rw [he]; rfl)
  | .currency id s, w, e, h => ⟨_, by rw [leaves]; exact List.mem_singleton_self _, h⟩
  | .creditEntity id s, w, e, h => ⟨_, by rw [leaves]; exact List.mem_singleton_self _, h⟩
  | .equity id c s, w, e, h => ⟨_, by rw [leaves]; exact List.mem_singleton_self _, h⟩
  | .zeroCoupon id c x p s, w, e, h => ⟨_, by rw [leaves]; exact List.mem_singleton_self _, h⟩
  | .spotStarting va u k, w, e, h => ⟨_, by rw [leaves]; exact List.mem_singleton_self _, h⟩
  | .forwardStarting va u k dd t, w, e, h => ⟨_, by rw [leaves]; exact List.mem_singleton_self _, h⟩

theorem nestedAll_fails {d : DateTime} : ∀ (parts : List (ℝ × Instrument)) (w : ℝ) {e : Fault} (q : ℝ × Instrument), q ∈ parts →
    q.2.price fuel ctx d = .error e → ∃ p ∈ leavesAll w parts, p.2.price fuel ctx d = .error e
  | [], w, e, q, hq, h => by cases hq
  | (x, i) :: rest, w, e, q, hq, h => by
    rw [leavesAll]
    by_cases hi : i.price fuel ctx d = .error e
    · obtain ⟨p, hp, he⟩ := nested_fails i (w * x) hi
      exact ⟨p, List.mem_append_left _ hp, he⟩
    · have hq' : q ∈ rest := by
        rcases List.mem_cons.1 hq with rfl | hq
        · exact absurd h hi
        · exact hq
      obtain ⟨p, hp, he⟩ := nestedAll_fails rest w q hq' h
      exact ⟨p, List.mem_append_right _ hp, he⟩
end

/-- C40, at any depth: if an instrument fails to price, an instrument inside it that is not a basket fails in the
same way. -/
theorem C40_nested_fails {i : Instrument} {d : DateTime} {e : Fault} (h : i.price fuel ctx d = .error e) :
    ∃ p ∈ leaves 1 i, p.2.price fuel ctx d = .error e := nested_fails i 1 h

/-- A context in which every equity is worth 100 on day 0, there are no rates and no forwards, and all volatilities
are 20%. -/
noncomputable def sampleContext : PricingContext :=
  ⟨0, fun _ _ => .ok (.zero 0), fun _ => .ok 100, fun _ _ => .ok ⟨fun _ => .ok (.val 100), fun _ => .ok (.val 0)⟩,
    fun _ _ _ => .ok (.flat (.val 0.2) .everyDay (0, 0))⟩

/-- C40: a basket within a basket, worth 3 * (2 * 100 + 5 * 1) + 7 * 1. -/
example : (Instrument.basket "outer" "" id [(3, .basket "inner" "" id [(2, .equity "A" "" id), (5, .currency "USD" id)]),
    (7, .currency "USD" id)]).price 0 sampleContext ⟨0, .close⟩ = .ok (.val 622) := by
  refine C40_price.2 ⟨[.val 205, .val 1], .cons (C40_price.2 ⟨[.val 100, .val 1], .cons ?_ (.cons ?_ .nil), ?_⟩) (.cons ?_ .nil), ?_⟩
  · rfl
  · rfl
  · norm_num [weightedSum, num1]
  · rfl
  · norm_num [weightedSum, num1]

/-! ## C43 -/

theorem replaced_map_none : ∀ (xs : List (ℝ × Instrument)) (ds : List (Option (List (ℝ × Instrument)))), xs.length = ds.length →
    (∀ d ∈ ds, d = none) → replaced xs ds = xs
  | [], [], _, _ => rfl
  | (w, i) :: xs, d :: ds, hl, h => by
    have := h d (by simp)
    subst this
    rw [replaced, replaced_map_none xs ds (by simpa using hl) (fun d hd => h d (by simp [hd]))]
  | [], _ :: _, hl, _ => by simp at hl
  | _ :: _, [], hl, _ => by simp at hl

theorem replaced_append (xs ys : List (ℝ × Instrument)) (ds es : List (Option (List (ℝ × Instrument)))) (hl : xs.length = ds.length) :
    replaced (xs ++ ys) (ds ++ es) = replaced xs ds ++ replaced ys es := by
  induction xs generalizing ds with
  | nil =>
    cases ds with
    | nil => rfl
    | cons _ _ => simp at hl
  | cons x xs ih =>
    obtain ⟨w, i⟩ := x
    cases ds with
    | nil => simp at hl
    | cons d ds =>
      have := ih ds (by simpa using hl)
      cases d with
      | none => simp [replaced, this]
      | some d => simp [replaced, this]

/-- Loop invariant of `fix_all` after the instruments in `pre`. -/
def FixInv (pre : List (ℝ × Instrument)) (ds : List (Option (List (ℝ × Instrument)))) (s : FixState) : Prop :=
  if (∀ d ∈ ds, d = none) then s = ⟨[], pre.length, false⟩ else s.modified = true ∧ s.basket = replaced pre ds

open Classical in
theorem fixStep_inv {pre post : List (ℝ × Instrument)} {w : ℝ} {i : Instrument} {ds : List (Option (List (ℝ × Instrument)))}
    {d : Option (List (ℝ × Instrument))} {s : FixState} (hl : pre.length = ds.length) (h : FixInv pre ds s) :
    FixInv (pre ++ [(w, i)]) (ds ++ [d]) (fixStep (pre ++ (w, i) :: post) w i d s) := by
  unfold FixInv at h ⊢
  by_cases hn : ∀ x ∈ ds, x = none
  · rw [if_pos hn] at h
    subst h
    cases d with
    | none =>
      rw [if_pos (by intro x hx; rcases List.mem_append.1 hx with hx | hx; exact hn x hx; simpa using hx)]
      simp [fixStep]
    | some d =>
      rw [if_neg (by intro hx; have := hx (some d) (by simp); cases this)]
      refine ⟨by simp [fixStep], ?_⟩
      rw [replaced_append _ _ _ _ hl, replaced_map_none pre ds hl hn]
      simp [fixStep, replaced]
  · rw [if_neg hn] at h
    rw [if_neg (by intro hx; exact hn (fun x hxm => hx x (List.mem_append_left _ hxm)))]
    cases d with
    | none => simp [fixStep, h.1, h.2, replaced_append _ _ _ _ hl, replaced]
    | some d => simp [fixStep, h.1, h.2, replaced_append _ _ _ _ hl, replaced]

theorem fixLoop_iff {table : FixingTable ℝ} (pre rest : List (ℝ × Instrument)) (ds : List (Option (List (ℝ × Instrument))))
    (s s' : FixState) (hl : pre.length = ds.length) (hs : FixInv pre ds s)
    (h : fixLoop table (pre ++ rest) rest s = .ok s') :
    ∃ es, List.Forall₂ (fun p d => p.2.fix table = .ok d) rest es ∧ FixInv (pre ++ rest) (ds ++ es) s' := by
  induction rest generalizing pre ds s with
  | nil =>
    rw [fixLoop] at h
    cases h
    exact ⟨[], .nil, by simpa using hs⟩
  | cons p rest ih =>
    obtain ⟨w, i⟩ := p
    rw [fixLoop] at h
    obtain ⟨d, hd, h⟩ := bind_ok h
    have hinv := fixStep_inv (post := rest) (w := w) (i := i) (d := d) hl hs
    have happ : pre ++ (w, i) :: rest = (pre ++ [(w, i)]) ++ rest := by simp
    rw [happ] at h hinv
    obtain ⟨es, he, hf⟩ := ih (pre ++ [(w, i)]) (ds ++ [d]) _ (by simp [hl]) hinv h
    exact ⟨d :: es, .cons hd he, by rw [happ]; simpa using hf⟩

theorem fixLoop_ok {table : FixingTable ℝ} {all rest : List (ℝ × Instrument)} {s : FixState}
    {es : List (Option (List (ℝ × Instrument)))} (h : List.Forall₂ (fun p d => p.2.fix table = .ok d) rest es) :
    ∃ s', fixLoop table all rest s = .ok s' := by
  induction h generalizing s with
  | nil => exact ⟨s, by rw [fixLoop]⟩
  | @cons p d rest es h1 h2 ih =>
    obtain ⟨w, i⟩ := p
    rw [fixLoop]
    show ∃ s', i.fix table >>= _ = _
    rw [h1]
    exact ih

open Classical in
theorem fixAll_of {table : FixingTable ℝ} {xs : List (ℝ × Instrument)} {r : Option (List (ℝ × Instrument))}
    (h : fixAll table xs = .ok r) : ∃ ds, List.Forall₂ (fun p d => p.2.fix table = .ok d) xs ds ∧
      r = if (∀ d ∈ ds, d = none) then none else some (replaced xs ds) := by
  unfold fixAll at h
  obtain ⟨s, h1, h⟩ := bind_ok h
  have := pure_ok h
  subst this
  obtain ⟨ds, hd, hinv⟩ := fixLoop_iff [] xs [] ⟨[], 0, false⟩ s rfl (by simp [FixInv]) h1
  refine ⟨ds, hd, ?_⟩
  unfold FixInv at hinv
  simp only [List.nil_append] at hinv
  split at hinv
  · rename_i hn; subst hinv; rw [if_pos hn]; rfl
  · rename_i hn
    rw [if_neg hn, FixState.result, if_pos hinv.1, hinv.2]

open Classical in
/-- C43. `fix_all` fixes every instrument; if none of them changes it reports no change, otherwise it gives the
portfolio with each changed instrument replaced by its components, weights multiplied, and the others kept in their places. -/
theorem C43_fix_all {table : FixingTable ℝ} {xs : List (ℝ × Instrument)} {r : Option (List (ℝ × Instrument))} :
    fixAll table xs = .ok r ↔ ∃ ds, List.Forall₂ (fun p d => p.2.fix table = .ok d) xs ds ∧
      r = if (∀ d ∈ ds, d = none) then none else some (replaced xs ds) := by
  constructor
  · exact fixAll_of
  · rintro ⟨ds, hd, rfl⟩
    obtain ⟨s, hs⟩ := fixLoop_ok (all := xs) (s := ⟨[], 0, false⟩) hd
    have hr : fixAll table xs = .ok s.result := by
      unfold fixAll
      rw [hs]
      rfl
    obtain ⟨es, he, e⟩ := fixAll_of hr
    have : ds = es := by
      clear hs hr e
      induction hd generalizing es with
      | nil => cases he; rfl
      | cons h1 h2 ih =>
        cases he with
        | cons h1' h2' =>
          rw [h1] at h1'
          cases h1'
          rw [ih _ h2']
    subst this
    rw [hr, e]

/-- C43. No change is reported exactly when no instrument changes. -/
theorem C43_no_change {table : FixingTable ℝ} {xs : List (ℝ × Instrument)} :
    fixAll table xs = .ok none ↔ ∀ p ∈ xs, p.2.fix table = .ok none := by
  rw [C43_fix_all]
  constructor
  · rintro ⟨ds, hd, e⟩ p hp
    split at e
    · rename_i hn
      clear e
      induction hd with
      | nil => cases hp
      | @cons q d qs ds h1 h2 ih =>
        rcases List.mem_cons.1 hp with rfl | hp
        · rw [h1, hn d (by simp)]
        · exact ih hp (fun d hd => hn d (by simp [hd]))
    · cases e
  · intro h
    refine ⟨xs.map (fun _ => none), ?_, by rw [if_pos (by simp)]⟩
    induction xs with
    | nil => exact .nil
    | cons x xs ih => exact .cons (h x (by simp)) (ih (fun p hp => h p (by simp [hp])))

/-- C43. If fixing each instrument preserves its value, fixing the portfolio preserves its value. -/
theorem C43_value {table : FixingTable ℝ} {xs ys : List (ℝ × Instrument)} (h : fixAll table xs = .ok (some ys))
    {value : Instrument → ℝ}
    (hv : ∀ p ∈ xs, ∀ d, p.2.fix table = .ok (some d) → value p.2 = worth value d) :
    worth value ys = worth value xs := by
  obtain ⟨ds, hd, e⟩ := C43_fix_all.1 h
  split at e
  · cases e
  · cases e
    clear h
    rename_i hn
    clear hn
    induction hd with
    | nil => rfl
    | @cons p d ps ds h1 h2 ih =>
      obtain ⟨w, i⟩ := p
      have := ih (fun p hp => hv p (by simp [hp]))
      cases d with
      | none =>
        rw [replaced]
        unfold worth at this ⊢
        simp [this]
      | some d =>
        have hi := hv (w, i) (by simp) d h1
        rw [replaced]
        unfold worth at this hi ⊢
        rw [List.map_append, List.sum_append, this, List.map_cons, List.sum_cons]
        dsimp only at hi
        rw [hi]
        congr 1
        rw [List.map_map]
        clear h1 hi this hv ih
        induction d with
        | nil => simp
        | cons q d ih =>
          rw [List.map_cons, List.sum_cons, List.map_cons, List.sum_cons, ih]
          simp
          ring

/-- C43 for a basket: it changes exactly when one of its components does, into one basket holding what `fix_all`
makes of its components. -/
theorem C43_basket {table : FixingTable ℝ} {id creditId : String} {settlement : Int → Int} {parts : List (ℝ × Instrument)}
    {r : Option (List (ℝ × Instrument))} :
    (Instrument.basket id creditId settlement parts).fix table = .ok r ↔
      ∃ q, fixAll table parts = .ok q ∧ r = q.map (fun ps => [(1, .basket (id ++ ":fixed") creditId settlement ps)]) := by
  rw [Instrument.fix]
  unfold fixAll
  cases fixLoop table parts parts ⟨[], 0, false⟩ with
  | error e =>
    constructor
    · intro h; cases h
    · rintro ⟨q, h, _⟩; cases h
  | ok s =>
    show (match s.result with
      | some basket => pure (some [(1, .basket (id ++ ":fixed") creditId settlement basket)])
      | none => pure none : Outcome (Option (List (ℝ × Instrument)))) = .ok r ↔ ∃ q, Except.ok s.result = .ok q ∧ _
    cases s.result with
    | none =>
      constructor
      · intro h; cases h; exact ⟨none, rfl, rfl⟩
      · rintro ⟨q, h, rfl⟩; cases h; rfl
    | some b =>
      constructor
      · intro h; cases h; exact ⟨_, rfl, rfl⟩
      · rintro ⟨q, h, rfl⟩; cases h; rfl

theorem forall2_unique {α β : Type} {f : α → Outcome β} {xs : List α} {ys zs : List β}
    (h1 : List.Forall₂ (fun x y => f x = .ok y) xs ys) (h2 : List.Forall₂ (fun x y => f x = .ok y) xs zs) : ys = zs := by
  have a := each_iff.2 h1
  have b := each_iff.2 h2
  rw [a] at b
  cases b
  rfl

/-- C43. If every change of a component leaves its price the same, that is, its components are worth as much as it,
fixing a basket leaves its price the same. -/
theorem C43_basket_price {table : FixingTable ℝ} {id creditId : String} {settlement : Int → Int} {parts fixed : List (ℝ × Instrument)}
    {d : DateTime} {v : Num ℝ}
    (h : (Instrument.basket id creditId settlement parts).fix table = .ok (some fixed))
    (hp : (Instrument.basket id creditId settlement parts).price fuel ctx d = .ok v)
    (hv : ∀ p ∈ parts, ∀ ds, p.2.fix table = .ok (some ds) → ∀ x, p.2.price fuel ctx d = .ok x →
      ∃ xs, List.Forall₂ (fun q x => q.2.price fuel ctx d = .ok x) ds xs ∧ x = weightedSum (List.zipWith (fun q x => (q.1, x)) ds xs)) :
    ∃ b, fixed = [(1, b)] ∧ b.price fuel ctx d = .ok v := by
  obtain ⟨q, hq, e⟩ := C43_basket.1 h
  cases q with
  | none => cases e
  | some ps =>
    cases e
    refine ⟨_, rfl, ?_⟩
    obtain ⟨ds, hd, e⟩ := C43_fix_all.1 hq
    split at e
    · cases e
    · cases e
      obtain ⟨vs, hvs, rfl⟩ := C40_price.1 hp
      rw [C40_price]
      clear h hq hp
      rename_i hn
      clear hn
      induction hd generalizing vs with
      | nil => cases hvs; exact ⟨[], .nil, rfl⟩
      | @cons p dd ps ds h1 h2 ih =>
        obtain ⟨w, i⟩ := p
        cases hvs with
        | @cons _ x _ vs hx hvs =>
          obtain ⟨ys, hys, ey⟩ := ih (fun p hp => hv p (by simp [hp])) vs hvs
          cases dd with
          | none =>
            refine ⟨x :: ys, by rw [replaced]; exact .cons hx hys, ?_⟩
            rw [replaced, List.zipWith_cons_cons, List.zipWith_cons_cons, weightedSum_cons, weightedSum_cons, ey]
          | some dd =>
            obtain ⟨xs, hxs, rfl⟩ := hv (w, i) (by simp) dd h1 x hx
            have hxs' : List.Forall₂ (fun q x => q.2.price fuel ctx d = .ok x) (dd.map (fun p => (w * p.1, p.2))) xs := by
              clear h1 hx
              induction hxs with
              | nil => exact .nil
              | cons a _ ih => exact .cons a ih
            refine ⟨xs ++ ys, by rw [replaced]; exact forall2_append hxs' hys, ?_⟩
            rw [replaced, zipWith_append_forall2 _ hxs', weightedSum_append, ← ey, List.zipWith_cons_cons, weightedSum_cons]
            congr 1
            rw [← weightedSum_scale, List.zipWith_map_left, List.map_zipWith]

/-- C43: two options, one of which fixes in the money, next to an equity. -/
example : fixAll ⟨10, ⟨[("A", ⟨[(⟨5, .close⟩, 120)]⟩)]⟩⟩
    [(2, .equity "A" "" id), (3, .spotStarting ⟨"O", "C", id, ⟨5, .close⟩, .call, .cash, (5, 0.8), 7⟩ (.equity "A" "" id) 100)] =
    .ok (some [(2, .equity "A" "" id), (60, .zeroCoupon "O:payment" "C" ⟨5, .close⟩ 7 id)]) := by
  rw [C43_fix_all]
  refine ⟨[none, some [(20, .zeroCoupon "O:payment" "C" ⟨5, .close⟩ 7 id)]], .cons rfl (.cons ?_ .nil), ?_⟩
  · show Except.ok (some (decompose _ _ (100 : ℝ) 120)) = _
    congr 2
    simp only [decompose, sign]
    norm_num [payment]
    decide
  · rw [if_neg (by simp)]
    simp [replaced]
    norm_num

end QM.Instruments
