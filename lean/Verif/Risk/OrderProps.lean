import Verif.Risk.SumProps

/-!
# Property C110: changes of different things can be made in any order
-/

namespace QM.Risk.Spec
open QM.Interp QM.Curves QM.Vol QM.Instruments QM.Market QM.Market.Spec

/-- Changes made to a pricer one after another, each with any save area, none of which fails. -/
inductive Applied : SelfPricer → List Bump → SelfPricer → Prop
  | none (p : SelfPricer) : Applied p [] p
  | next {p p' q : SelfPricer} {b : Bump} {rest : List Bump} {changed : Bool} {save save' : Option SavedPrefetch} :
      p.bump b save = (.ok changed, p', save') → Applied p' rest q → Applied p (b :: rest) q

/-- Changes made to a market one after another. -/
noncomputable def changed (md : MarketData) (bumps : List Bump) : MarketData := bumps.foldl (fun md b => (md.bump b none).2.1) md

/-- The changes name different things, and none of them is the date. -/
def Different (bumps : List Bump) : Prop := (∀ b ∈ bumps, (target b).isSome) ∧ bumps.Pairwise fun a b => target a ≠ target b

end QM.Risk.Spec

namespace QM.Risk
open QM.Interp QM.Curves QM.Vol QM.Instruments QM.Instruments.Spec QM.Market QM.Market.Spec QM.Risk.Spec

/-- What a change does to the data. -/
noncomputable def changeOf (f : Answers) (b : Bump) : Answers :=
  match target b with
  | none => f
  | some x => match f x with
    | none => f
    | some v => Function.update f x (some (bumped b x v))

theorem changeOf_none {f : Answers} {b : Bump} {x : Slot} (ht : target b = some x) (hx : f x = none) : changeOf f b = f := by
  unfold changeOf
  rw [ht]
  dsimp only
  rw [hx]

theorem changeOf_some {f : Answers} {b : Bump} {x : Slot} {v : x.Val} (ht : target b = some x) (hx : f x = some v) :
    changeOf f b = Function.update f x (some (bumped b x v)) := by
  unfold changeOf
  rw [ht]
  dsimp only
  rw [hx]

theorem changeOf_other {f : Answers} {b : Bump} {x y : Slot} (ht : target b = some x) (hy : y ≠ x) : changeOf f b y = f y := by
  cases hx : f x with
  | none => rw [changeOf_none ht hx]
  | some v => rw [changeOf_some ht hx, Function.update_of_ne hy]

theorem changeOf_at {f g : Answers} {b : Bump} {x : Slot} (ht : target b = some x) (h : f x = g x) : changeOf f b x = changeOf g b x := by
  cases hx : f x with
  | none => rw [changeOf_none ht hx, changeOf_none ht (h.symm.trans hx), h]
  | some v => rw [changeOf_some ht hx, changeOf_some ht (h.symm.trans hx), Function.update_self, Function.update_self]

/-- Changes of different things commute. -/
theorem changeOf_comm {f : Answers} {a b : Bump} {x y : Slot} (ha : target a = some x) (hb : target b = some y) (hne : x ≠ y) :
    changeOf (changeOf f a) b = changeOf (changeOf f b) a := by
  funext z
  by_cases hx : z = x
  · subst hx
    rw [changeOf_other hb hne]
    exact changeOf_at ha (changeOf_other hb hne).symm
  · by_cases hy : z = y
    · subst hy
      rw [changeOf_other ha hx]
      exact changeOf_at hb (changeOf_other ha hx)
    · rw [changeOf_other hb hy, changeOf_other ha hx, changeOf_other ha hx, changeOf_other hb hy]

theorem changes_perm {bs bs' : List Bump} (h : bs.Perm bs') (hd : Different bs) (f : Answers) : bs.foldl changeOf f = bs'.foldl changeOf f := by
  refine h.foldl_eq' ?_ f
  intro a ha b hb z
  have hsym : Std.Symm fun a b : Bump => target a ≠ target b := ⟨fun _ _ h => h.symm⟩
  by_cases hab : target a = target b
  · by_cases heq : a = b
    · rw [heq]
    · exact (hd.2.forall ha hb heq hab).elim
  · obtain ⟨x, hx⟩ := Option.isSome_iff_exists.1 (hd.1 a ha)
    obtain ⟨y, hy⟩ := Option.isSome_iff_exists.1 (hd.1 b hb)
    exact changeOf_comm hx hy (by rintro rfl; exact hab (hx.trans hy.symm))

theorem data_changed (bs : List Bump) (hs : ∀ b ∈ bs, (target b).isSome) : ∀ md : MarketData,
    (changed md bs).spotDate = md.spotDate ∧ data (changed md bs) = bs.foldl changeOf (data md) := by
  induction bs with
  | nil => intro md; exact ⟨rfl, rfl⟩
  | cons b bs ih =>
    intro md
    obtain ⟨x, hx⟩ := Option.isSome_iff_exists.1 (hs b (by simp))
    obtain ⟨i1, i2⟩ := ih (fun e he => hs e (by simp [he])) (md.bump b none).2.1
    rw [List.foldl_cons]
    unfold changed at i1 i2 ⊢
    rw [List.foldl_cons, i1, i2]
    rcases data_bump md hx none with ⟨h1, h2⟩ | ⟨v, h1, h2⟩
    · rw [h2]
      exact ⟨rfl, by rw [changeOf_none hx h1]⟩
    · rw [h2]
      refine ⟨put_spotDate .., ?_⟩
      rw [changeOf_some hx h1]
      congr 1
      funext y
      exact congrFun (data_put md (target_data hx) _) y

variable {fuel : Nat} {instruments : List (ℝ × Instrument)} {md : MarketData} {p q q' : SelfPricer}

theorem at_applied {sd : Int} {bs : List Bump} (hu : Unambiguous (collect sd instruments)) (hs : ∀ b ∈ bs, (target b).isSome) (ha : Applied p bs q) :
    ∀ {f : Answers}, At instruments sd f p → At instruments sd (bs.foldl changeOf f) q := by
  induction ha with
  | none p => intro f h; exact h
  | next hb _ ih =>
    rename_i p p' q b rest c save save' _
    intro f h
    refine ih (fun e he => hs e (by simp [he])) ?_
    obtain ⟨x, hx⟩ := Option.isSome_iff_exists.1 (hs b (by simp))
    cases hv : f x with
    | none =>
      obtain ⟨h1, h2⟩ := self_bump hb
      obtain ⟨_, h3, _⟩ := bump_effect hx h2
      obtain ⟨_, h4⟩ := h3 ((h.answers (target_data hx)).trans hv)
      rw [changeOf_none hx hv]
      exact ⟨h1.trans h.instruments, h4 ▸ h.coherent, h4 ▸ h.dependencies, h4 ▸ h.spotDate, h4 ▸ h.data⟩
    | some v =>
      rw [changeOf_some hx hv]
      exact (h.bump hu hx hv hb).2

theorem context_applied {bs : List Bump} (hs : ∀ b ∈ bs, (target b).isSome) (ha : Applied p bs q) : q.context.context = changed p.context.context bs := by
  induction ha with
  | none p => rfl
  | next hb _ ih =>
    rename_i p p' q b rest c save save' _
    rw [ih fun e he => hs e (by simp [he])]
    unfold changed
    rw [List.foldl_cons]
    congr 1
    obtain ⟨x, hx⟩ := Option.isSome_iff_exists.1 (hs b (by simp))
    obtain ⟨_, h2⟩ := self_bump hb
    obtain ⟨_, h3, h4⟩ := bump_effect hx h2
    have hans : Market.Spec.answers p.context x = data p.context.context x := by
      have := target_data hx
      cases x <;> first | rfl | exact this.elim
    rcases data_bump p.context.context hx none with ⟨k1, k2⟩ | ⟨v, k1, k2⟩
    · rw [k2, (h3 (hans.trans k1)).2]
    · rw [k2, (h4 v (hans.trans k1)).2]

theorem At.unique {sd : Int} {f : Answers} (hp : At instruments sd f p) (hq : At instruments sd f q) : Same p q :=
  .of (hp.instruments.trans hq.instruments.symm) (hp.coherent.unique hq.coherent (hp.dependencies.trans hq.dependencies.symm) (hp.spotDate.trans hq.spotDate.symm)
    fun x => (hp.data x).trans (hq.data x).symm)

/-! ## C110 -/

/-- C110, market data: changes of different things, made in any two orders, leave the same data. -/
theorem C110_data {bs bs' : List Bump} (h : bs.Perm bs') (hd : Different bs) (md : MarketData) :
    (∀ x, data (changed md bs) x = data (changed md bs') x) ∧ (changed md bs).spotDate = (changed md bs').spotDate := by
  obtain ⟨h1, h2⟩ := data_changed bs hd.1 md
  obtain ⟨h3, h4⟩ := data_changed bs' (fun b hb => hd.1 b (h.mem_iff.2 hb)) md
  exact ⟨fun x => by rw [h2, h4, changes_perm h hd], h1.trans h3.symm⟩

/-- C110. A pricer of a portfolio in which an id names one instrument, after changes of different things made in any two orders: the portfolio has the same
price, or no price for the same reason, and everything else the pricer says about the market is the same. -/
theorem C110_order (ho : OwnNames instruments) (hp : SelfPricer.new instruments md = .ok p) {bs bs' : List Bump} (h : bs.Perm bs') (hd : Different bs)
    (hq : Applied p bs q) (hq' : Applied p bs' q') : q.price fuel = q'.price fuel ∧ Same q q' := by
  have hu := ho.unambiguous md.spotDate
  have h1 := at_applied hu hd.1 hq (at_new hp)
  have h2 := at_applied hu (fun b hb => hd.1 b (h.mem_iff.2 hb)) hq' (at_new hp)
  rw [changes_perm h hd] at h1
  have hs := h1.unique h2
  exact ⟨hs.price fuel, hs⟩

/-- C110. The price after any changes, of the same things or of different ones, is that of a new pricer in the market with those changes. -/
theorem C110_market (ho : OwnNames instruments) (hp : SelfPricer.new instruments md = .ok p) {bs : List Bump} (hs : ∀ b ∈ bs, (target b).isSome)
    (hq : Applied p bs q) : ∃ q', SelfPricer.new instruments (changed md bs) = .ok q' ∧ q.price fuel = q'.price fuel ∧ Same q q' := by
  have hu := ho.unambiguous md.spotDate
  have h1 := at_applied hu hs hq (at_new hp)
  have h2 := context_applied hs hq
  obtain ⟨_, hn⟩ := new_self hp
  obtain ⟨_, hctx, _⟩ := coherent_new (collect_wellFormed _ _) hn
  rw [hctx] at h2
  obtain ⟨c, h3, h4⟩ := h1.coherent.fresh (h1.dependencies ▸ collect_wellFormed _ _)
  have h3' := h3
  rw [h2, h1.dependencies] at h3'
  have hsd := (data_changed bs hs md).1
  have hnew : SelfPricer.new instruments (changed md bs) = .ok ⟨instruments, c⟩ := by
    unfold SelfPricer.new
    rw [hsd, h3']
    rfl
  obtain ⟨_, k1, k2⟩ := coherent_new (collect_wellFormed _ _) h3'
  have hsame : Same q ⟨instruments, c⟩ := ⟨h1.instruments, h1.dependencies.trans k2.symm, by rw [h2, ← k1], h4⟩
  exact ⟨_, hnew, hsame.price fuel, hsame⟩

/-- C110. Two proportional changes of a spot are one, by the product of the factors. -/
theorem C110_spot {id : String} {a b c : ℝ} (ho : OwnNames instruments) (hp : SelfPricer.new instruments md = .ok p) (hc : 1 + c = (1 + a) * (1 + b))
    (hq : Applied p [.spot id (.relative a), .spot id (.relative b)] q) (hq' : Applied p [.spot id (.relative c)] q') :
    q.price fuel = q'.price fuel ∧ Same q q' := by
  have hu := ho.unambiguous md.spotDate
  have h1 := at_applied hu (by simp [target]) hq (at_new hp)
  have h2 := at_applied hu (by simp [target]) hq' (at_new hp)
  have heq : [Bump.spot id (.relative a), .spot id (.relative b)].foldl changeOf (data md) = [Bump.spot id (.relative c)].foldl changeOf (data md) := by
    simp only [List.foldl_cons, List.foldl_nil]
    cases hS : data md (.spot id) with
    | none => rw [changeOf_none (x := .spot id) rfl hS, changeOf_none (x := .spot id) rfl hS, changeOf_none (x := .spot id) rfl hS]
    | some S =>
      rw [changeOf_some (x := .spot id) (b := .spot id (.relative a)) rfl hS, changeOf_some (x := .spot id) rfl (Function.update_self ..),
        changeOf_some (x := .spot id) (b := .spot id (.relative c)) rfl hS, Function.update_idem]
      congr 2
      show ((show ℝ from S) * (1 + a)) * (1 + b) = (show ℝ from S) * (1 + c)
      rw [hc]
      ring
  rw [heq] at h1
  have hs := h1.unique h2
  exact ⟨hs.price fuel, hs⟩

/-- C110. A proportional change of a spot followed by its inverse leaves the pricer as it was. -/
theorem C110_back {id : String} {a b : ℝ} (ho : OwnNames instruments) (hp : SelfPricer.new instruments md = .ok p) (hc : (1 + a) * (1 + b) = 1)
    (hq : Applied p [.spot id (.relative a), .spot id (.relative b)] q) : q.price fuel = p.price fuel ∧ Same q p := by
  have hu := ho.unambiguous md.spotDate
  have h1 := at_applied hu (by simp [target]) hq (at_new hp)
  have heq : [Bump.spot id (.relative a), .spot id (.relative b)].foldl changeOf (data md) = data md := by
    simp only [List.foldl_cons, List.foldl_nil]
    cases hS : data md (.spot id) with
    | none => rw [changeOf_none (x := .spot id) rfl hS, changeOf_none (x := .spot id) rfl hS]
    | some S =>
      rw [changeOf_some (x := .spot id) (b := .spot id (.relative a)) rfl hS, changeOf_some (x := .spot id) rfl (Function.update_self ..),
        Function.update_idem]
      have : bumped (.spot id (.relative b)) (.spot id) (bumped (.spot id (.relative a)) (.spot id) S) = S := by
        show ((show ℝ from S) * (1 + a)) * (1 + b) = (show ℝ from S)
        rw [mul_assoc, hc, mul_one]
      rw [this]
      exact update_same hS
  rw [heq] at h1
  have hs := h1.unique (at_new hp)
  exact ⟨hs.price fuel, hs⟩

/-! ## A case -/

/-- The sample market with a flat volatility `σ` and spot `S`. -/
noncomputable def flatMarket (σ S : ℝ) : MarketData := withVol (sampleMarket S (.zero 0)) "A" (.flat (.val σ) .everyDay (0, 0))

theorem flatMarket_spot (σ S S' : ℝ) : data (flatMarket σ S') = Function.update (data (flatMarket σ S)) (.spot "A") (some S') := by
  have : flatMarket σ S' = withSpot (flatMarket σ S) "A" S' := by
    simp [flatMarket, withSpot, withVol, sampleMarket, Map.insert]
  rw [this]
  funext y
  exact withSpot_data _ _ _ y

theorem flatMarket_vol (σ σ' S : ℝ) :
    data (flatMarket σ' S) = Function.update (data (flatMarket σ S)) (.vol "A") (some (.flat (.val σ') .everyDay (0, 0))) := by
  have : flatMarket σ' S = withVol (flatMarket σ S) "A" (.flat (.val σ') .everyDay (0, 0)) := by
    simp [flatMarket, withVol, sampleMarket, Map.insert]
  rw [this]
  funext y
  exact withVol_data _ _ _ y

theorem flatMarket_new {σ S K : ℝ} (hσ : 0 < σ) (hS : 0 < S) (hK : 0 < K) :
    ∃ p, SelfPricer.new [(1, euro .call sampleTerms "A" "C" _root_.id K)] (flatMarket σ S) = .ok p := by
  obtain ⟨p, hp, _⟩ := setting_new (sample_setting (fuel := 0) σ S K) 1 .call (by linarith) (by linarith) (by positivity)
  exact ⟨p, hp⟩

/-- C110: the spot is set to 110 and the volatility to 30 percent, in either order. -/
example : ∃ p q q', SelfPricer.new [(1, euro .call sampleTerms "A" "C" _root_.id 100)] (flatMarket 0.2 100) = .ok p ∧
    Applied p [.spot "A" (.replace 110), .vol "A" (.replace (.val 0.3))] q ∧ Applied p [.vol "A" (.replace (.val 0.3)), .spot "A" (.replace 110)] q' ∧
    Different [.spot "A" (.replace 110), .vol "A" (.replace (.val 0.3))] ∧ OwnNames [(1, euro .call sampleTerms "A" "C" _root_.id 100)] ∧
    q.price fuel = q'.price fuel := by
  obtain ⟨p, hp⟩ := flatMarket_new (σ := 0.2) (S := 100) (K := 100) (by norm_num) (by norm_num) (by norm_num)
  obtain ⟨p₁, hp₁⟩ := flatMarket_new (σ := 0.2) (S := 110) (K := 100) (by norm_num) (by norm_num) (by norm_num)
  obtain ⟨p₂, hp₂⟩ := flatMarket_new (σ := 0.3) (S := 100) (K := 100) (by norm_num) (by norm_num) (by norm_num)
  obtain ⟨p₃, hp₃⟩ := flatMarket_new (σ := 0.3) (S := 110) (K := 100) (by norm_num) (by norm_num) (by norm_num)
  have ho : OwnNames [(1, euro .call sampleTerms "A" "C" _root_.id 100)] := by
    intro u hu v hv _
    simp [mentionedAll, mentioned, euro] at hu hv
    rw [hu, hv]
  have hu := ho.unambiguous 0
  obtain ⟨c1, c2, c3⟩ := collect_option (v := sampleTerms) (id := "A") (credit := "C") (settle := _root_.id) (K := 100) 1 .call 0
  have hi : (collect 0 [((1 : ℝ), euro .call sampleTerms "A" "C" _root_.id 100)]).instruments.get "A" ≠ none := by rw [c3]; simp [Map.get]
  have hf : (collect 0 [((1 : ℝ), euro .call sampleTerms "A" "C" _root_.id 100)]).forwardCurves.get "A" ≠ none := by rw [c1]; simp [Map.get]
  have hv : (collect 0 [((1 : ℝ), euro .call sampleTerms "A" "C" _root_.id 100)]).volSurfaces.get "A" ≠ none := by rw [c2]; simp [Map.get]
  have h0 : At _ 0 (data (flatMarket 0.2 100)) p := at_new hp
  have hspot : ∀ σ S, data (flatMarket σ S) (.spot "A") = some S := by intro σ S; rw [flatMarket_spot σ S S, Function.update_self]; rfl
  have hvol : ∀ σ S, data (flatMarket σ S) (.vol "A") = some (.flat (.val σ) .everyDay (0, 0)) := by intro σ S; rw [flatMarket_vol σ σ S, Function.update_self]
  obtain ⟨a, s1, e1⟩ := h0.bump_spot (b := .replace 110) hu (hspot _ _) hi hf rfl (fun x => congrFun (flatMarket_spot 0.2 100 110) x) hp₁ none
  obtain ⟨_, ha⟩ := h0.bump hu (x := .spot "A") rfl (hspot _ _) e1
  have ha : At [(1, euro .call sampleTerms "A" "C" _root_.id 100)] 0 (data (flatMarket 0.2 110)) a := by
    rw [flatMarket_spot 0.2 100 110]
    exact ha
  obtain ⟨b, s2, e2⟩ := ha.bump_vol (b := .replace (.val 0.3)) hu (hvol _ _) hi hf hv rfl (fun x => congrFun (flatMarket_vol 0.2 0.3 110) x) hp₃ none
  obtain ⟨c, s3, e3⟩ := h0.bump_vol (b := .replace (.val 0.3)) hu (hvol _ _) hi hf hv rfl (fun x => congrFun (flatMarket_vol 0.2 0.3 100) x) hp₂ none
  obtain ⟨_, hc⟩ := h0.bump hu (x := .vol "A") rfl (hvol _ _) e3
  have hc : At [(1, euro .call sampleTerms "A" "C" _root_.id 100)] 0 (data (flatMarket 0.3 100)) c := by
    rw [flatMarket_vol 0.2 0.3 100]
    exact hc
  obtain ⟨d, s4, e4⟩ := hc.bump_spot (b := .replace 110) hu (hspot _ _) hi hf rfl (fun x => congrFun (flatMarket_spot 0.3 100 110) x) hp₃ none
  have hd : Different [.spot "A" (.replace 110), .vol "A" (.replace (.val 0.3))] := ⟨by simp [target], by simp [target]⟩
  have hb : Applied p [.spot "A" (.replace 110), .vol "A" (.replace (.val 0.3))] b := .next e1 (.next e2 (.none b))
  have hb' : Applied p [.vol "A" (.replace (.val 0.3)), .spot "A" (.replace 110)] d := .next e3 (.next e4 (.none d))
  exact ⟨p, b, d, hp, hb, hb', hd, ho, (C110_order ho hp (.swap ..) hd hb hb').1⟩

end QM.Risk
