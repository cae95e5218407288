import Verif.MonteCarlo.RiskProps
import Verif.MonteCarlo.SharedProps
import Verif.Risk.OrderProps

/-!
# Property C110 for Monte-Carlo pricers: changes of different things can be made in any order
-/

namespace QM.MonteCarlo
open QM.Interp QM.Vol QM.Instruments QM.Market QM.Market.Spec QM.Risk QM.Risk.Spec QM.Fixings Spec
open QM.Instruments.Spec (NotLater LaterOf gone)

namespace Spec

/-- Changes made to a Monte-Carlo pricer one after another, each with any save area, none of which fails. -/
inductive Changed (fuel : Nat) : MonteCarlo → List Bump → MonteCarlo → Prop
  | none (p : MonteCarlo) : Changed fuel p [] p
  | next {p p' q : MonteCarlo} {b : Bump} {rest : List Bump} {changed : Bool} {save save' : Option SavedBlackDiffusion} :
      MonteCarlo.bump fuel b p save = (.ok changed, p', save') → Changed fuel p' rest q → Changed fuel p (b :: rest) q

end Spec

variable {fuel : Nat} {f : ModelFactory} {md : MarketData} {draw : Draws} {l : List (ℝ × Instrument)} {p q q' : MonteCarlo}

/-! ## Lemmas -/

/-- What fetching paths again leaves alone. -/
def Kept (m m' : BlackDiffusion) : Prop := m'.context = m.context ∧ m'.flows = m.flows ∧ m'.nPaths = m.nPaths

theorem refetch_kept {m m' : BlackDiffusion} {id : String} {bumped changed : Bool} {save save' : Option SavedBlackDiffusion}
    (h : m.refetch fuel id bumped save = (.ok changed, m', save')) : Kept m m' := by
  obtain ⟨_, h1, h2⟩ := refetch_ok h
  cases bumped with
  | false => rw [(h1 rfl).1]; exact ⟨rfl, rfl, rfl⟩
  | true =>
    obtain ⟨_, _, rfl, _⟩ := h2 rfl
    exact ⟨rfl, rfl, rfl⟩

theorem refetchAllOf_kept {bumped : Bool} : ∀ {ids : List String} {m m' : BlackDiffusion} {save save' : Option SavedBlackDiffusion},
    BlackDiffusion.refetchAllOf fuel bumped ids m save = (.ok (), m', save') → Kept m m'
  | [], m, m', save, save', h => by cases h; exact ⟨rfl, rfl, rfl⟩
  | id :: rest, m, m', save, save', h => by
    rw [BlackDiffusion.refetchAllOf] at h
    generalize hr : m.refetch fuel id bumped save = r at h
    obtain ⟨r, m1, s1⟩ := r
    cases r with
    | error e => cases h
    | ok changed =>
      obtain ⟨a, b, c⟩ := refetch_kept hr
      obtain ⟨a', b', c'⟩ := refetchAllOf_kept h
      exact ⟨a'.trans a, b'.trans b, c'.trans c⟩

/-- A change of a Monte-Carlo pricer that succeeds is the same change of its context. -/
theorem mc_bump_context {b : Bump} {p' : MonteCarlo} {changed : Bool} {save save' : Option SavedBlackDiffusion}
    (h : MonteCarlo.bump fuel b p save = (.ok changed, p', save')) :
    (∃ changed' ps, p.model.context.bump b (save.map SavedBlackDiffusion.savedData) = (.ok changed', p'.model.context, ps)) ∧
      p'.instruments = p.instruments ∧ p'.factory = p.factory ∧ p'.model.flows = p.model.flows ∧ p'.model.nPaths = p.model.nPaths := by
  unfold MonteCarlo.bump BlackDiffusion.bump at h
  generalize hb : p.model.context.bump b (save.map SavedBlackDiffusion.savedData) = r at h
  obtain ⟨r, c, ps⟩ := r
  dsimp only at h
  cases r with
  | error e => cases h
  | ok bumped =>
    dsimp only at h
    have done : ∀ {m' : BlackDiffusion}, Kept { p.model with context := c } m' → p' = { p with model := m' } →
        (∃ changed' ps', ((.ok bumped, c, ps) : Outcome Bool × Prefetch × Option SavedPrefetch) = (.ok changed', p'.model.context, ps')) ∧
          p'.instruments = p.instruments ∧ p'.factory = p.factory ∧ p'.model.flows = p.model.flows ∧ p'.model.nPaths = p.model.nPaths := by
      rintro m' ⟨h1, h2, h3⟩ rfl
      exact ⟨⟨bumped, ps, by rw [h1]⟩, rfl, rfl, h2, h3⟩
    have key : ∀ (id : String) (sv : Option SavedBlackDiffusion) (x : Outcome Bool × BlackDiffusion × Option SavedBlackDiffusion),
        BlackDiffusion.refetch fuel { p.model with context := c } id bumped sv = x →
        (x.1, ({ p with model := x.2.1 } : MonteCarlo), x.2.2) = (.ok changed, p', save') →
        (∃ changed' ps', ((.ok bumped, c, ps) : Outcome Bool × Prefetch × Option SavedPrefetch) = (.ok changed', p'.model.context, ps')) ∧
          p'.instruments = p.instruments ∧ p'.factory = p.factory ∧ p'.model.flows = p.model.flows ∧ p'.model.nPaths = p.model.nPaths := by
      intro id sv x hx he
      obtain ⟨x, m', s'⟩ := x
      cases he
      exact done (refetch_kept hx) rfl
    cases b with
    | spot id b => exact key _ _ _ rfl h
    | divs id b => exact key _ _ _ rfl h
    | borrow id b => exact key _ _ _ rfl h
    | vol id b => exact key _ _ _ rfl h
    | yield creditId b =>
      dsimp only at h
      generalize hr : BlackDiffusion.refetchAllOf fuel bumped ((c.dependencies.forwardIds.get creditId).getD []) { p.model with context := c }
        (save.map fun s => { s with savedData := ps.getD s.savedData }) = r at h
      obtain ⟨r, m', s'⟩ := r
      cases r with
      | error e => cases h
      | ok _ =>
        cases h
        exact done (refetchAllOf_kept hr) rfl
    | spotDate b =>
      dsimp only at h
      cases bumped with
      | false =>
        rw [if_neg (by simp)] at h
        cases h
        exact done (m' := { p.model with context := c }) ⟨rfl, rfl, rfl⟩ rfl
      | true =>
        rw [if_pos rfl] at h
        unfold BlackDiffusion.refetchAll at h
        dsimp only at h
        generalize hr : fetchPaths fuel c.pricingContext p.model.observations p.model.gaussians p.model.instruments p.model.substepping = r at h
        cases r with
        | error e => cases h
        | ok all =>
          dsimp only at h
          cases h
          exact done (m' := { p.model with context := c, paths := all }) ⟨rfl, rfl, rfl⟩ rfl

/-- The context and the paths of a changed pricer. -/
theorem changed_self {bs : List Bump} (h : Changed fuel p bs q) :
    Applied ⟨p.instruments, p.model.context⟩ bs ⟨q.instruments, q.model.context⟩ ∧ q.factory = p.factory ∧ q.model.flows = p.model.flows ∧
      q.model.nPaths = p.model.nPaths ∧ ∀ {u obs ks gs}, InStep fuel u obs ks gs p → InStep fuel u obs ks gs q := by
  induction h with
  | none p => exact ⟨.none _, rfl, rfl, rfl, fun h => h⟩
  | next hb _ ih =>
    obtain ⟨⟨_, _, h1⟩, h2, h3, h4, h5⟩ := mc_bump_context hb
    obtain ⟨i1, i2, i3, i4, i5⟩ := ih
    refine ⟨.next (self_bump_of (p := ⟨_, _⟩) h1) (by rw [h2] at i1; exact i1), i2.trans h3, i3.trans h4, i4.trans h5, fun h => i5 (bump_inStep h hb)⟩

theorem changed_tied {bs : List Bump} {u : Instrument} (ho : OwnNames l) (hp : MonteCarlo.new fuel f l md draw = .ok p) (hu : p.model.instruments = [u])
    (hs : ∀ b ∈ bs, (target b).isSome) (h : Changed fuel p bs q) :
    Tied fuel f l md.spotDate draw u p.model.observations p.model.substepping p.model.flows (bs.foldl changeOf (data md)) q := by
  have h0 := tied_new hp hu
  obtain ⟨h1, h2, h3, h4, h5⟩ := changed_self h
  exact ⟨h2.trans h0.factory, at_applied (ho.unambiguous md.spotDate) hs h1 h0.context, h5 h0.step, h3, h4.trans h0.nPaths⟩

/-! ## C110 -/

/-- C110. A Monte-Carlo pricer of a portfolio in which an id names one instrument, after changes of different things made in any two orders: the paths, the
price or the reason why there is none, and everything that the pricer says about the market are the same. -/
theorem C110_simulated (ho : OwnNames l) (hp : MonteCarlo.new fuel f l md draw = .ok p) {bs bs' : List Bump} (h : bs.Perm bs') (hd : Different bs)
    (hq : Changed fuel p bs q) (hq' : Changed fuel p bs' q') : q.price fuel = q'.price fuel ∧ SameModel q q' := by
  obtain ⟨u, hu, _⟩ := C80_collected hp
  have h1 := changed_tied ho hp hu hd.1 hq
  have h2 := changed_tied ho hp hu (fun b hb => hd.1 b (h.mem_iff.2 hb)) hq'
  rw [changes_perm h hd] at h1
  exact ⟨(h1.unique h2).price fuel, h1.unique h2⟩

/-- C110. The price after any changes is that of a new pricer with the same draws in the market with those changes. What is missing: markets that ask
for other numbers of steps, where the changed pricer keeps its own, `C64_common_draws`. -/
theorem C110_simulated_partial (ho : OwnNames l) (hp : MonteCarlo.new fuel f l md draw = .ok p) {bs : List Bump} (hs : ∀ b ∈ bs, (target b).isSome)
    (hq : Changed fuel p bs q) (hn : MonteCarlo.new fuel f l (changed md bs) draw = .ok q') (hk : q'.model.substepping = p.model.substepping) :
    q.price fuel = q'.price fuel ∧ SameModel q q' := by
  obtain ⟨u, hu, _⟩ := C80_collected hp
  obtain ⟨e1, e2, e3⟩ := new_same_shape hp hn
  have h1 := changed_tied ho hp hu hs hq
  have h2 := tied_new hn (e1.trans hu)
  obtain ⟨d1, d2⟩ := data_changed bs hs md
  rw [e2, hk, e3, d1, d2] at h2
  exact ⟨(h1.unique h2).price fuel, h1.unique h2⟩

/-- C110. A proportional change of a spot followed by its inverse leaves the pricer as it was. -/
theorem C110_simulated_back {id : String} {a b : ℝ} (ho : OwnNames l) (hp : MonteCarlo.new fuel f l md draw = .ok p) (hc : (1 + a) * (1 + b) = 1)
    (hq : Changed fuel p [.spot id (.relative a), .spot id (.relative b)] q) : q.price fuel = p.price fuel ∧ SameModel q p := by
  obtain ⟨u, hu, _⟩ := C80_collected hp
  have h1 := changed_tied ho hp hu (by simp [target]) hq
  have heq : [Bump.spot id (.relative a), .spot id (.relative b)].foldl changeOf (data md) = data md := by
    simp only [List.foldl_cons, List.foldl_nil]
    cases hS : data md (.spot id) with
    | none => rw [changeOf_none (x := .spot id) rfl hS, changeOf_none (x := .spot id) rfl hS]
    | some S =>
      rw [changeOf_some (x := .spot id) (b := .spot id (.relative a)) rfl hS, changeOf_some (x := .spot id) rfl (Function.update_self ..),
        Function.update_idem]
      have : bumped (.spot id (.relative b)) (.spot id) (bumped (.spot id (.relative a)) (.spot id) S) = S := by
        show ((show ℝ from S) * (1 + a)) * (1 + b) = (show ℝ from S)
        rw [mul_assoc, hc, mul_one]
      rw [this]
      exact update_same hS
  rw [heq] at h1
  have h0 := tied_new hp hu
  exact ⟨(h1.unique h0).price fuel, h1.unique h0⟩

/-! ## A case -/

/-- A Monte-Carlo pricer of a call with strike 100 in a sample market, with one step. -/
theorem flat_drawn {σ S : ℝ} (hσ : 0 < σ) (hσ1 : σ < 1) (hS : 0 < S) {n : Nat} (hn : n ≠ 0) (draw : Draws) :
    ∃ p, MonteCarlo.new fuel ⟨1, n⟩ [(1, euro .call sampleTerms "A" "C" _root_.id 100)] (flatMarket σ S) draw = .ok p ∧
      p.model.instruments = [.equity "A" "C" _root_.id] ∧ p.model.substepping = [1] := by
  have h := sample_setting (fuel := fuel) σ S 100
  obtain ⟨_, _, ⟨fwd, hf, hF⟩, hv⟩ := setting_here h
  obtain ⟨c1, c2, c3⟩ := collect_option (v := sampleTerms) (id := "A") (credit := "C") (settle := _root_.id) (K := 100) 1 .call (flatMarket σ S).spotDate
  have hnew : Prefetch.new (flatMarket σ S) (collect (flatMarket σ S).spotDate [(1, euro .call sampleTerms "A" "C" _root_.id 100)]) =
      .ok ⟨flatMarket σ S, collect (flatMarket σ S).spotDate [(1, euro .call sampleTerms "A" "C" _root_.id 100)], ⟨[("A", fwd)]⟩,
        ⟨[("A", .flat (.val σ) .everyDay (0, 0))]⟩⟩ := by
    unfold Prefetch.new
    rw [c1, c2]
    unfold walkDependencies
    rw [show (flatMarket σ S).forwardCurve (.equity "A" "C" _root_.id) sampleTerms.expiry.date = .ok fwd from hf]
    dsimp only
    rw [show Map.get ⟨[("A", Instrument.equity "A" "C" _root_.id, sampleTerms.expiry.date)]⟩ (Instrument.equity "A" "C" _root_.id).id =
      some (Instrument.equity "A" "C" _root_.id, sampleTerms.expiry.date) by simp [Map.get, Instrument.id]]
    dsimp only
    rw [show ∀ g, (flatMarket σ S).volSurface (.equity "A" "C" _root_.id) sampleTerms.expiry.date g = .ok (.flat (.val σ) .everyDay (0, 0)) from hv]
    rfl
  have hvar : (VolSurface.flat (.val σ) .everyDay (0, 0)).variance fuel sampleTerms.expiryTime (.val (1 * S - 0)) = .ok (.val (2 / 73 * σ ^ 2)) := by
    have hy := everyDay_year 10
    norm_num at hy
    have h2 := (flat_variances (fuel := fuel) (v := σ) (c := .everyDay) (base := (0, 0)) (t := (10, 0)) (ks := [.val (1 * S - 0)])
      (out := [.val (σ ^ 2 * (2 / 73))])).2 ⟨2 / 73, hy, rfl⟩
    unfold VolSurface.variance
    rw [show sampleTerms.expiryTime = (10, 0) from rfl, h2, mul_comm (σ ^ 2)]
    rfl
  have hm : Spec.Market fuel (Prefetch.pricingContext ⟨flatMarket σ S, collect (flatMarket σ S).spotDate [(1, euro .call sampleTerms "A" "C" _root_.id 100)],
      ⟨[("A", fwd)]⟩, ⟨[("A", .flat (.val σ) .everyDay (0, 0))]⟩⟩) (.equity "A" "C" _root_.id) [sampleTerms.expiryTime] (fun _ => 1 * S - 0)
      (fun _ => 2 / 73 * σ ^ 2) (fun _ => 0) := by
    refine ⟨sampleTerms.expiryTime, fwd, .flat (.val σ) .everyDay (0, 0), rfl, ?_, ?_, ?_⟩
    · show find "A" ⟨[("A", fwd)]⟩ = _
      simp [find, Map.get]
    · show find "A" ⟨[("A", VolSurface.flat (.val σ) .everyDay (0, 0))]⟩ = _
      simp [find, Map.get]
    · intro i pt hi
      have : pt = sampleTerms.expiryTime := by simpa using List.mem_of_getElem? hi
      subst this
      exact ⟨hF, hvar, h.displacement⟩
  obtain ⟨m, hmod⟩ := model_succeeds (fuel := fuel) (f := ⟨1, n⟩)
    (t := ⟨⟨[("A", .equity "A" "C" _root_.id, [sampleTerms.expiryTime])]⟩, [expiryFlow { sampleTerms with putOrCall := .call }]⟩) draw
    (k := "A") (u := .equity "A" "C" _root_.id) (obs := [sampleTerms.expiryTime]) rfl hm (by
      intro i hi
      obtain rfl : i = 0 := by simpa using hi
      simp only [Spec.before]
      positivity) one_ne_zero hn
  have hp : MonteCarlo.new fuel ⟨1, n⟩ [(1, euro .call sampleTerms "A" "C" _root_.id 100)] (flatMarket σ S) draw =
      .ok ⟨⟨1, n⟩, [(1, euro .call sampleTerms "A" "C" _root_.id 100)], m⟩ := by
    unfold MonteCarlo.new
    rw [euro, timeline_spot, ok_bind]
    rw [show Instrument.spotStarting { sampleTerms with putOrCall := .call } (.equity "A" "C" _root_.id) 100 = euro .call sampleTerms "A" "C" _root_.id 100 from rfl,
      hnew, ok_bind]
    exact congrArg (fun x : Outcome BlackDiffusion => x >>= fun model =>
      (pure ⟨⟨1, n⟩, [(1, euro .call sampleTerms "A" "C" _root_.id 100)], model⟩ : Outcome MonteCarlo)) hmod
  obtain ⟨k', u', obs, ks, paths, he, hs, _, _, e⟩ := model_new_ok hmod
  cases he
  refine ⟨_, hp, by rw [e], ?_⟩
  have hk := substepping_val hm hs
  rw [e]
  show ks = _
  rw [hk]
  have hc : ⌈(2 / 73 * σ ^ 2 - 0) / (1 : ℝ)⌉₊ ≤ 1 := by
    rw [Nat.ceil_le]
    push_cast
    nlinarith
  simp [steps, Spec.before] at hc ⊢
  exact hc

/-- C110: the spot is set to 110 and the volatility to 30 percent, in either order, with any draws. -/
example {n : Nat} (hn : n ≠ 0) (draw : Draws) :
    ∃ p q q', MonteCarlo.new fuel ⟨1, n⟩ [(1, euro .call sampleTerms "A" "C" _root_.id 100)] (flatMarket 0.2 100) draw = .ok p ∧
      Changed fuel p [.spot "A" (.replace 110), .vol "A" (.replace (.val 0.3))] q ∧
      Changed fuel p [.vol "A" (.replace (.val 0.3)), .spot "A" (.replace 110)] q' ∧
      Different [.spot "A" (.replace 110), .vol "A" (.replace (.val 0.3))] ∧ OwnNames [(1, euro .call sampleTerms "A" "C" _root_.id 100)] ∧
      q.price fuel = q'.price fuel := by
  obtain ⟨p, hp, a0, s0⟩ := flat_drawn (fuel := fuel) (σ := 0.2) (S := 100) (by norm_num) (by norm_num) (by norm_num) hn draw
  obtain ⟨p₁, hp₁, a1, s1⟩ := flat_drawn (fuel := fuel) (σ := 0.2) (S := 110) (by norm_num) (by norm_num) (by norm_num) hn draw
  obtain ⟨p₂, hp₂, a2, s2⟩ := flat_drawn (fuel := fuel) (σ := 0.3) (S := 100) (by norm_num) (by norm_num) (by norm_num) hn draw
  obtain ⟨p₃, hp₃, a3, s3⟩ := flat_drawn (fuel := fuel) (σ := 0.3) (S := 110) (by norm_num) (by norm_num) (by norm_num) hn draw
  have ho : OwnNames [(1, euro .call sampleTerms "A" "C" _root_.id 100)] := by
    intro u hu v hv _
    simp [mentionedAll, mentioned, euro] at hu hv
    rw [hu, hv]
  have hu := ho.unambiguous 0
  have tie : ∀ {md' : MarketData} {p' : MonteCarlo}, MonteCarlo.new fuel ⟨1, n⟩ [(1, euro .call sampleTerms "A" "C" _root_.id 100)] md' draw = .ok p' →
      p'.model.instruments = [.equity "A" "C" _root_.id] → p'.model.substepping = [1] → md'.spotDate = 0 →
      Tied fuel ⟨1, n⟩ [(1, euro .call sampleTerms "A" "C" _root_.id 100)] 0 draw (.equity "A" "C" _root_.id) p.model.observations [1] p.model.flows
        (data md') p' := by
    intro md' p' h1 h2 h3 h4
    obtain ⟨_, e2, e3⟩ := new_same_shape hp h1
    have := tied_new h1 h2
    rw [e2, e3, h3, h4] at this
    exact this
  have t0 := tie hp a0 s0 rfl
  have t1 := tie hp₁ a1 s1 rfl
  have t2 := tie hp₂ a2 s2 rfl
  have t3 := tie hp₃ a3 s3 rfl
  obtain ⟨c1, c2, c3⟩ := collect_option (v := sampleTerms) (id := "A") (credit := "C") (settle := _root_.id) (K := 100) 1 .call 0
  have hi : (collect 0 [((1 : ℝ), euro .call sampleTerms "A" "C" _root_.id 100)]).instruments.get "A" ≠ none := by rw [c3]; simp [Map.get]
  have hf : (collect 0 [((1 : ℝ), euro .call sampleTerms "A" "C" _root_.id 100)]).forwardCurves.get "A" ≠ none := by rw [c1]; simp [Map.get]
  have hv : (collect 0 [((1 : ℝ), euro .call sampleTerms "A" "C" _root_.id 100)]).volSurfaces.get "A" ≠ none := by rw [c2]; simp [Map.get]
  have hspot : ∀ σ S, data (flatMarket σ S) (.spot "A") = some S := by intro σ S; rw [flatMarket_spot σ S S, Function.update_self]; rfl
  have hvol : ∀ σ S, data (flatMarket σ S) (.vol "A") = some (.flat (.val σ) .everyDay (0, 0)) := by intro σ S; rw [flatMarket_vol σ σ S, Function.update_self]
  -- the spot at some volatility
  have spot : ∀ {σ : ℝ} {q r : MonteCarlo}, MonteCarlo.new fuel ⟨1, n⟩ [(1, euro .call sampleTerms "A" "C" _root_.id 100)] (flatMarket σ 110) draw = .ok r →
      Tied fuel ⟨1, n⟩ [(1, euro .call sampleTerms "A" "C" _root_.id 100)] 0 draw (.equity "A" "C" _root_.id) p.model.observations [1] p.model.flows
        (data (flatMarket σ 110)) r →
      Tied fuel ⟨1, n⟩ [(1, euro .call sampleTerms "A" "C" _root_.id 100)] 0 draw (.equity "A" "C" _root_.id) p.model.observations [1] p.model.flows
        (data (flatMarket σ 100)) q →
      ∃ q' s', MonteCarlo.bump fuel (.spot "A" (.replace 110)) q none = (.ok true, q', s') ∧
        Tied fuel ⟨1, n⟩ [(1, euro .call sampleTerms "A" "C" _root_.id 100)] 0 draw (.equity "A" "C" _root_.id) p.model.observations [1] p.model.flows
          (data (flatMarket σ 110)) q' := by
    intro σ q r hr tr tq
    obtain ⟨_, _, e⟩ := tq.context.bump_spot (b := .replace 110) hu (hspot _ _) hi hf rfl (fun x => congrFun (flatMarket_spot σ 100 110) x) (new_context_self hr) none
    obtain ⟨_, e⟩ := self_bump e
    obtain ⟨q', s', h1, h2⟩ := tq.bump (b := .spot "A" (.replace 110)) (x := .spot "A") hu rfl rfl (hspot σ 100) (save := none) e
      (by rw [flatMarket_spot σ 100 110] at tr; exact tr)
    exact ⟨q', s', h1, by rw [flatMarket_spot σ 100 110]; exact h2⟩
  -- the volatility at some spot
  have vol : ∀ {S : ℝ} {q r : MonteCarlo}, MonteCarlo.new fuel ⟨1, n⟩ [(1, euro .call sampleTerms "A" "C" _root_.id 100)] (flatMarket 0.3 S) draw = .ok r →
      Tied fuel ⟨1, n⟩ [(1, euro .call sampleTerms "A" "C" _root_.id 100)] 0 draw (.equity "A" "C" _root_.id) p.model.observations [1] p.model.flows
        (data (flatMarket 0.3 S)) r →
      Tied fuel ⟨1, n⟩ [(1, euro .call sampleTerms "A" "C" _root_.id 100)] 0 draw (.equity "A" "C" _root_.id) p.model.observations [1] p.model.flows
        (data (flatMarket 0.2 S)) q →
      ∃ q' s', MonteCarlo.bump fuel (.vol "A" (.replace (.val 0.3))) q none = (.ok true, q', s') ∧
        Tied fuel ⟨1, n⟩ [(1, euro .call sampleTerms "A" "C" _root_.id 100)] 0 draw (.equity "A" "C" _root_.id) p.model.observations [1] p.model.flows
          (data (flatMarket 0.3 S)) q' := by
    intro S q r hr tr tq
    obtain ⟨_, _, e⟩ := tq.context.bump_vol (b := .replace (.val 0.3)) hu (hvol _ _) hi hf hv rfl (fun x => congrFun (flatMarket_vol 0.2 0.3 S) x) (new_context_self hr) none
    obtain ⟨_, e⟩ := self_bump e
    obtain ⟨q', s', h1, h2⟩ := tq.bump (b := .vol "A" (.replace (.val 0.3))) (x := .vol "A") hu rfl rfl (hvol 0.2 S) (save := none) e
      (by rw [flatMarket_vol 0.2 0.3 S] at tr; exact tr)
    exact ⟨q', s', h1, by rw [flatMarket_vol 0.2 0.3 S]; exact h2⟩
  obtain ⟨q1, _, e1, u1⟩ := spot hp₁ t1 t0
  obtain ⟨q2, _, e2, u2⟩ := vol hp₃ t3 u1
  obtain ⟨q3, _, e3, u3⟩ := vol hp₂ t2 t0
  obtain ⟨q4, _, e4, u4⟩ := spot hp₃ t3 u3
  have hd : Different [.spot "A" (.replace 110), .vol "A" (.replace (.val 0.3))] := ⟨by simp [target], by simp [target]⟩
  have hb : Changed fuel p [.spot "A" (.replace 110), .vol "A" (.replace (.val 0.3))] q2 := .next e1 (.next e2 (.none q2))
  have hb' : Changed fuel p [.vol "A" (.replace (.val 0.3)), .spot "A" (.replace 110)] q4 := .next e3 (.next e4 (.none q4))
  exact ⟨p, q2, q4, hp, hb, hb', hd, ho, (C110_simulated ho hp (.swap ..) hd hb hb').1⟩

end QM.MonteCarlo
