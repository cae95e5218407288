import Verif.Market.Spec
import Verif.Instruments.DependencyLemmas

/-!
# Helper lemmas for bumps and restores

A bump is a series of writes of slots, each of which may first save what it overwrites.
-/

namespace QM.Market
open QM.Interp QM.Curves QM.Dividends QM.Vol QM.Instruments Spec

/-- Answers. -/
abbrev Answers := (x : Slot) → Option x.Val

/-- What is held in a save area. -/
def savedAnswers (s : SavedPrefetch) : Answers
  | .forward id => s.forwardCurves.get id
  | .surface id => s.volSurfaces.get id
  | .spot id => s.savedData.spots.get id
  | .divs id => s.savedData.dividends.get id
  | .borrow id => s.savedData.borrowCurves.get id
  | .vol id => s.savedData.volSurfaces.get id
  | .yield id => s.savedData.yieldCurves.get id

/-- A series of writes. -/
inductive Trace (saved : Bool) : Answers → Answers → List Slot → Answers → Answers → Prop
  | nil (f g : Answers) : Trace saved f g [] f g
  | cons {f g f' g' : Answers} {xs : List Slot} (x : Slot) (v : x.Val) :
      (f x).isSome → Trace saved (Function.update f x (some v)) (if saved then Function.update g x (f x) else g) xs f' g' →
      Trace saved f g (x :: xs) f' g'

variable {f g f' g' f'' g'' : Answers} {xs ys : List Slot} {saved : Bool}

theorem Trace.append (h : Trace saved f g xs f' g') (h' : Trace saved f' g' ys f'' g'') : Trace saved f g (xs ++ ys) f'' g'' := by
  induction h with
  | nil => exact h'
  | cons x v hx _ ih => exact .cons x v hx (ih h')

theorem Trace.single (x : Slot) (v : x.Val) (hx : (f x).isSome) :
    Trace saved f g [x] (Function.update f x (some v)) (if saved then Function.update g x (f x) else g) :=
  .cons x v hx (.nil _ _)

theorem Trace.write {x : Slot} {w : x.Val} (h : f x = some w) (v : x.Val) :
    Trace saved f g [x] (Function.update f x (some v)) (if saved then Function.update g x (some w) else g) := by
  rw [← h]
  exact .single x v (by rw [h]; rfl)

theorem Trace.touch {x : Slot} {w : x.Val} (h : f x = some w) :
    Trace saved f g [x] f (if saved then Function.update g x (some w) else g) := by
  have := Trace.write (saved := saved) (g := g) h w
  rw [← h, Function.update_eq_self] at this
  rw [← h]
  exact this

theorem Trace.frame (h : Trace saved f g xs f' g') : ∀ x, x ∉ xs → f' x = f x ∧ g' x = g x := by
  induction h with
  | nil => exact fun _ _ => ⟨rfl, rfl⟩
  | cons x v hx _ ih =>
    intro y hy
    rw [List.mem_cons, not_or] at hy
    obtain ⟨h1, h2⟩ := ih y hy.2
    rw [Function.update_of_ne hy.1] at h1
    refine ⟨h1, h2.trans ?_⟩
    split
    · rw [Function.update_of_ne hy.1]
    · rfl

theorem Trace.present (h : Trace saved f g xs f' g') : ∀ x, (f' x).isSome = (f x).isSome := by
  induction h with
  | nil => exact fun _ => rfl
  | cons x v hx _ ih =>
    intro y
    rw [ih y]
    by_cases e : y = x
    · subst e
      rw [Function.update_self, hx]
      rfl
    · rw [Function.update_of_ne e]

theorem Trace.written (h : Trace saved f g xs f' g') : ∀ x ∈ xs, (f x).isSome := by
  induction h with
  | nil => exact fun _ h => absurd h (by simp)
  | cons x v hx _ ih =>
    intro y hy
    rcases List.mem_cons.1 hy with rfl | hy
    · exact hx
    · have := ih y hy
      by_cases e : y = x
      · subst e; exact hx
      · rwa [Function.update_of_ne e] at this

theorem Trace.unsaved (h : Trace false f g xs f' g') : g' = g := by
  induction h with
  | nil => rfl
  | cons x v hx _ ih => simpa using ih

theorem Trace.saves (h : Trace true f g xs f' g') (hn : xs.Nodup) : ∀ x ∈ xs, g' x = f x := by
  induction h with
  | nil => exact fun _ h => absurd h (by simp)
  | cons x v hx t ih =>
    rw [List.nodup_cons] at hn
    intro y hy
    rcases List.mem_cons.1 hy with rfl | hy
    · have := (t.frame y hn.1).2
      rw [if_pos rfl, Function.update_self] at this
      exact this
    · have := ih hn.2 y hy
      have e : y ≠ x := fun e => hn.1 (e ▸ hy)
      rwa [Function.update_of_ne e] at this

/-! ## Sessions in terms of answers -/

/-- What holds of answers and saved answers during a session that began with the answers `f₀`. -/
structure Session (T : Bump → List Slot) (f₀ : Answers) (done : List Bump) (f g : Answers) : Prop where
  restored : ∀ x, (g x).or (f x) = f₀ x
  present : ∀ x, (f x).isSome = (f₀ x).isSome
  fresh : ∀ x, (g x).isSome → ∃ b ∈ done, x ∈ T b
  covered : ∀ b ∈ done, (∃ x, target b = some x ∧ f x = none) ∨ ∀ x ∈ T b, (g x).isSome ∨ f x = none

theorem none_of_isSome_eq {α β : Type} {a : Option α} {b : Option β} (h : a.isSome = b.isSome) (hb : b = none) : a = none := by
  subst hb
  cases a
  · rfl
  · cases h

theorem Session.start (T : Bump → List Slot) (f : Answers) {g : Answers} (hg : ∀ x, g x = none) : Session T f [] f g :=
  ⟨fun x => by rw [hg]; rfl, fun _ => rfl, (fun x h => by rw [hg] at h; cases h), (fun _ h => absurd h (by simp))⟩

theorem Session.keep {T : Bump → List Slot} {f₀ : Answers} {done : List Bump} {b : Bump} (h : Session T f₀ done f g)
    (t : Trace false f g xs f' g') (hb : ∃ b' ∈ done, target b' = target b) (hT : ∀ b b', target b = target b' → T b = T b')
    (hx : ∀ x ∈ xs, x ∈ T b) (he : ∀ x, target b = some x → f x = none → xs = []) : Session T f₀ done f' g' := by
  have hg := t.unsaved
  subst hg
  obtain ⟨b', hb', et⟩ := hb
  have hcov : ∀ x ∈ xs, (g' x).isSome := by
    intro x hxs
    rcases h.covered b' hb' with ⟨y, h1, h2⟩ | h1
    · rw [he y (et ▸ h1) h2] at hxs
      cases hxs
    · rcases h1 x (by rw [hT _ _ et]; exact hx x hxs) with h2 | h2
      · exact h2
      · have := t.written x hxs
        rw [h2] at this
        cases this
  constructor
  · intro x
    by_cases hxs : x ∈ xs
    · obtain ⟨v, hv⟩ := Option.isSome_iff_exists.1 (hcov x hxs)
      rw [← h.restored x, hv]
      rfl
    · rw [(t.frame x hxs).1]
      exact h.restored x
  · intro x
    rw [t.present x, h.present x]
  · exact h.fresh
  · intro b hb
    rcases h.covered b hb with ⟨y, h1, h2⟩ | h1
    · exact .inl ⟨y, h1, none_of_isSome_eq (t.present y) h2⟩
    · refine .inr fun x hx => ?_
      rcases h1 x hx with h2 | h2
      · exact .inl h2
      · exact .inr (none_of_isSome_eq (t.present x) h2)

/-- A saved bump of fresh slots, whatever became of it. -/
theorem Session.save {T : Bump → List Slot} {f₀ : Answers} {done : List Bump} {b : Bump} (h : Session T f₀ done f g)
    (t : Trace true f g xs f' g') (hn : xs.Nodup) (hx : ∀ x ∈ xs, x ∈ T b) (hd : ∀ b' ∈ done, ∀ x ∈ T b', x ∉ T b) :
    (∀ x, (g' x).or (f' x) = f₀ x) ∧ (∀ x, (f' x).isSome = (f₀ x).isSome) ∧ (∀ x, (g' x).isSome → ∃ b' ∈ b :: done, x ∈ T b') := by
  have hg : ∀ x ∈ xs, g x = none := by
    intro x hxs
    by_contra hne
    obtain ⟨b', h1, h2⟩ := h.fresh x (Option.ne_none_iff_isSome.1 hne)
    exact hd b' h1 x h2 (hx x hxs)
  refine ⟨?_, ?_, ?_⟩
  · intro x
    by_cases hxs : x ∈ xs
    · rw [t.saves hn x hxs]
      obtain ⟨v, hv⟩ := Option.isSome_iff_exists.1 (t.written x hxs)
      rw [← h.restored x, hg x hxs, hv]
      rfl
    · rw [(t.frame x hxs).1, (t.frame x hxs).2]
      exact h.restored x
  · intro x
    rw [t.present x, h.present x]
  · intro x hx'
    by_cases hxs : x ∈ xs
    · exact ⟨b, by simp, hx x hxs⟩
    · rw [(t.frame x hxs).2] at hx'
      obtain ⟨b', h1, h2⟩ := h.fresh x hx'
      exact ⟨b', List.mem_cons_of_mem _ h1, h2⟩

/-- A saved bump that succeeded. -/
theorem Session.saveOk {T : Bump → List Slot} {f₀ : Answers} {done : List Bump} {b : Bump} (h : Session T f₀ done f g)
    (t : Trace true f g xs f' g') (hn : xs.Nodup) (hx : ∀ x ∈ xs, x ∈ T b) (hd : ∀ b' ∈ done, ∀ x ∈ T b', x ∉ T b)
    (hok : (∃ x, target b = some x ∧ f x = none) ∨ ∀ x ∈ T b, x ∈ xs ∨ f x = none) : Session T f₀ (b :: done) f' g' := by
  obtain ⟨h1, h2, h3⟩ := h.save t hn hx hd
  refine ⟨h1, h2, h3, ?_⟩
  intro b' hb'
  rcases List.mem_cons.1 hb' with rfl | hb'
  · rcases hok with ⟨x, e, hxn⟩ | hok
    · exact .inl ⟨x, e, none_of_isSome_eq (t.present x) hxn⟩
    · refine .inr fun x hxT => ?_
      rcases hok x hxT with hxs | hxn
      · left
        rw [t.saves hn x hxs]
        exact t.written x hxs
      · exact .inr (none_of_isSome_eq (t.present x) hxn)
  · rcases h.covered b' hb' with ⟨x, e, hxn⟩ | hc
    · exact .inl ⟨x, e, none_of_isSome_eq (t.present x) hxn⟩
    · refine .inr fun x hxT => ?_
      have hxs : x ∉ xs := fun hxs => hd b' hb' x hxT (hx x hxs)
      rw [(t.frame x hxs).1, (t.frame x hxs).2]
      exact hc x hxT

/-! ## Bumps of market data as traces -/

/-- The slots of market data. -/
def isData : Slot → Prop
  | .forward _ => False
  | .surface _ => False
  | _ => True

/-- Market data with one slot written. -/
def MarketData.put (md : MarketData) : (x : Slot) → x.Val → MarketData
  | .spot id, v => { md with spots := md.spots.insert id v }
  | .divs id, v => { md with dividends := md.dividends.insert id v }
  | .borrow id, v => { md with borrowCurves := md.borrowCurves.insert id v }
  | .vol id, v => { md with volSurfaces := md.volSurfaces.insert id v }
  | .yield id, v => { md with yieldCurves := md.yieldCurves.insert id v }
  | .forward _, _ => md
  | .surface _, _ => md

/-- A save area with one slot written. -/
def SavedData.put (s : SavedData) : (x : Slot) → x.Val → SavedData
  | .spot id, v => { s with spots := s.spots.insert id v }
  | .divs id, v => { s with dividends := s.dividends.insert id v }
  | .borrow id, v => { s with borrowCurves := s.borrowCurves.insert id v }
  | .vol id, v => { s with volSurfaces := s.volSurfaces.insert id v }
  | .yield id, v => { s with yieldCurves := s.yieldCurves.insert id v }
  | .forward _, _ => s
  | .surface _, _ => s

theorem data_put (md : MarketData) {x : Slot} (hx : isData x) (v : x.Val) : data (md.put x v) = Function.update (data md) x (some v) := by
  funext y
  by_cases e : y = x
  · subst e
    rw [Function.update_self]
    cases y <;> first | exact Map.get_insert_self _ _ _ | exact absurd hx id
  · rw [Function.update_of_ne e]
    cases x <;> cases y <;> first | rfl | exact Map.get_insert_ne _ _ (fun h => e (by rw [h])) | exact absurd hx id

theorem savedData_put (s : SavedData) {x : Slot} (hx : isData x) (v : x.Val) :
    savedData (s.put x v) = Function.update (savedData s) x (some v) := by
  funext y
  by_cases e : y = x
  · subst e
    rw [Function.update_self]
    cases y <;> first | exact Map.get_insert_self _ _ _ | exact absurd hx id
  · rw [Function.update_of_ne e]
    cases x <;> cases y <;> first | rfl | exact Map.get_insert_ne _ _ (fun h => e (by rw [h])) | exact absurd hx id

theorem target_data {b : Bump} {x : Slot} (h : target b = some x) : isData x := by
  cases b <;> cases h <;> trivial

/-- A bump of market data, in terms of slots. -/
theorem data_bump (md : MarketData) {b : Bump} {x : Slot} (h : target b = some x) (save : Option SavedData) :
    (data md x = none ∧ md.bump b save = (.ok false, md, save)) ∨
    ∃ v, data md x = some v ∧ md.bump b save = (.ok true, md.put x (bumped b x v), save.map fun s => s.put x v) := by
  cases b <;> cases h
  case spot id b =>
    unfold MarketData.bump applyBump
    dsimp only
    cases hg : md.spots.get id with
    | none => left; refine ⟨hg, ?_⟩; cases save <;> rfl
    | some v => right; refine ⟨v, hg, ?_⟩; cases save <;> rfl
  case divs id b =>
    unfold MarketData.bump applyBump
    dsimp only
    cases hg : md.dividends.get id with
    | none => left; refine ⟨hg, ?_⟩; cases save <;> rfl
    | some v => right; refine ⟨v, hg, ?_⟩; cases save <;> rfl
  case borrow id b =>
    unfold MarketData.bump applyBump
    dsimp only
    cases hg : md.borrowCurves.get id with
    | none => left; refine ⟨hg, ?_⟩; cases save <;> rfl
    | some v => right; refine ⟨v, hg, ?_⟩; cases save <;> rfl
  case vol id b =>
    unfold MarketData.bump applyBump
    dsimp only
    cases hg : md.volSurfaces.get id with
    | none => left; refine ⟨hg, ?_⟩; cases save <;> rfl
    | some v => right; refine ⟨v, hg, ?_⟩; cases save <;> rfl
  case yield id b =>
    unfold MarketData.bump applyBump
    dsimp only
    cases hg : md.yieldCurves.get id with
    | none => left; refine ⟨hg, ?_⟩; cases save <;> rfl
    | some v => right; refine ⟨v, hg, ?_⟩; cases save <;> rfl

theorem put_spotDate (md : MarketData) (x : Slot) (v : x.Val) : (md.put x v).spotDate = md.spotDate := by
  cases x <;> rfl

/-! ## Restoring -/

/-- No key twice. -/
def Distinct {V : Type} (m : Map String V) : Prop := (m.entries.map Prod.fst).Nodup

theorem distinct_empty {V : Type} : Distinct (Map.empty : Map String V) := List.nodup_nil

theorem distinct_insert {V : Type} {m : Map String V} (h : Distinct m) (k : String) (v : V) : Distinct (m.insert k v) := by
  unfold Distinct Map.insert
  rw [List.map_cons, List.nodup_cons]
  refine ⟨?_, ?_⟩
  · intro hm
    obtain ⟨e, he, hk⟩ := List.mem_map.1 hm
    have := (List.mem_filter.1 he).2
    simp at this
    exact this hk
  · exact List.Nodup.sublist (List.Sublist.map _ List.filter_sublist) h

theorem get_mem {V : Type} {m : Map String V} (h : Distinct m) (k : String) (v : V) : m.get k = some v ↔ (k, v) ∈ m.entries := by
  unfold Map.get
  unfold Distinct at h
  generalize m.entries = l at h
  induction l with
  | nil => simp
  | cons e l ih =>
    rw [List.map_cons, List.nodup_cons] at h
    rw [List.find?_cons]
    by_cases he : e.1 = k
    · simp only [he, decide_true, Option.map_some, List.mem_cons]
      constructor
      · intro h'
        cases h'
        left
        rw [← he]
      · rintro (h' | h')
        · rw [← h']
        · exact absurd (List.mem_map.2 ⟨_, h', rfl⟩) (he ▸ h.1)
    · simp only [he, decide_false, List.mem_cons]
      rw [ih h.2]
      constructor
      · exact .inr
      · rintro (h' | h')
        · exact absurd (by rw [← h']) he
        · exact h'

theorem copy_get {V : Type} (m : Map String V) {s : Map String V} (h : Distinct s) (k : String) :
    (copyFromSaved m s).get k = (s.get k).or (m.get k) := by
  unfold copyFromSaved Map.get
  unfold Distinct at h
  generalize s.entries = l at h
  induction l generalizing m with
  | nil => rfl
  | cons e l ih =>
    rw [List.map_cons, List.nodup_cons] at h
    have := ih (m.insert e.1 e.2) h.2
    rw [List.foldl_cons, this, List.find?_cons]
    by_cases he : e.1 = k
    · have hn : l.find? (fun e => decide (e.1 = k)) = none := by
        rw [List.find?_eq_none]
        intro e' he' hk
        exact h.1 (List.mem_map.2 ⟨e', he', by simpa [he] using hk⟩)
      rw [hn]
      simp only [he, decide_true, Option.map_some, Option.map_none, Option.none_or]
      have := Map.get_insert_self m k e.2
      unfold Map.get at this
      rw [this]
      rfl
    · simp only [he, decide_false]
      have := Map.get_insert_ne m e.2 (fun h => he h.symm : k ≠ e.1)
      unfold Map.get at this
      rw [this]

/-- All maps of a save area have distinct keys. -/
structure DistinctData (s : SavedData) : Prop where
  spots : Distinct s.spots
  yieldCurves : Distinct s.yieldCurves
  borrowCurves : Distinct s.borrowCurves
  dividends : Distinct s.dividends
  volSurfaces : Distinct s.volSurfaces

theorem distinct_new : DistinctData .new := ⟨distinct_empty, distinct_empty, distinct_empty, distinct_empty, distinct_empty⟩

theorem distinct_put {s : SavedData} (h : DistinctData s) (x : Slot) (v : x.Val) : DistinctData (s.put x v) := by
  obtain ⟨h1, h2, h3, h4, h5⟩ := h
  cases x <;> constructor <;> first | assumption | exact distinct_insert (by assumption) _ _

theorem data_restore (md : MarketData) {s : SavedData} (h : DistinctData s) (x : Slot) :
    data (md.restore s) x = (savedData s x).or (data md x) := by
  cases x
  case spot id => exact copy_get _ h.spots id
  case divs id => exact copy_get _ h.dividends id
  case borrow id => exact copy_get _ h.borrowCurves id
  case vol id => exact copy_get _ h.volSurfaces id
  case yield id => exact copy_get _ h.yieldCurves id
  case forward => rfl
  case surface => rfl

/-! ## Series of bumps of market data -/

/-- The slot that a bump names, as a list. -/
def named (b : Bump) : List Slot := (target b).toList

theorem data_trace (md : MarketData) (b : Bump) (s : SavedData) (saved : Bool) :
    ∃ xs, Trace saved (data md) (savedData s) xs (data (md.bump b (if saved then some s else none)).2.1)
      (savedData ((md.bump b (if saved then some s else none)).2.2.getD s)) ∧ xs.Nodup ∧ (∀ x ∈ xs, x ∈ named b) ∧
      ((∃ x, target b = some x ∧ data md x = none) ∨ ∀ x ∈ named b, x ∈ xs ∨ data md x = none) ∧
      (∀ x, target b = some x → data md x = none → xs = []) := by
  cases ht : target b with
  | none =>
    cases b <;> cases ht
    refine ⟨[], ?_, List.nodup_nil, by simp, .inr (by simp [named, target]), by simp⟩
    cases saved <;> exact .nil _ _
  | some x =>
    rcases data_bump md ht (if saved then some s else none) with ⟨h1, h2⟩ | ⟨v, h1, h2⟩
    · rw [h2]
      refine ⟨[], ?_, List.nodup_nil, by simp, .inl ⟨x, rfl, h1⟩, by simp⟩
      cases saved <;> exact .nil _ _
    · rw [h2]
      refine ⟨[x], ?_, by simp, by simp [named, ht], .inr (by simp [named, ht]), ?_⟩
      · dsimp only
        have := Trace.single (saved := saved) (f := data md) (g := savedData s) x (bumped b x v) (by rw [h1]; rfl)
        rw [data_put md (target_data ht)]
        cases saved with
        | false => exact this
        | true =>
          simp only [if_true, Option.map_some, Option.getD_some] at this ⊢
          rw [savedData_put s (target_data ht), ← h1]
          exact this
      · intro y hy hn
        cases hy
        rw [h1] at hn
        cases hn

theorem data_bump_distinct (md : MarketData) (b : Bump) {s : SavedData} (h : DistinctData s) (saved : Bool) :
    DistinctData ((md.bump b (if saved then some s else none)).2.2.getD s) ∧
      (md.bump b (if saved then some s else none)).2.1.spotDate = md.spotDate := by
  cases ht : target b with
  | none =>
    cases b <;> cases ht
    cases saved <;> exact ⟨h, rfl⟩
  | some x =>
    rcases data_bump md ht (if saved then some s else none) with ⟨h1, h2⟩ | ⟨v, h1, h2⟩
    · rw [h2]
      cases saved <;> exact ⟨h, rfl⟩
    · rw [h2]
      refine ⟨?_, put_spotDate _ _ _⟩
      cases saved with
      | false => exact h
      | true => exact distinct_put h _ _

theorem runData_session {f₀ : Answers} (bumps : List (Bump × Bool)) : ∀ {md : MarketData} {s : SavedData} {done : List Bump},
    DistinctData s → Session named f₀ done (data md) (savedData s) → SavedFirst (done.map target) bumps →
    DistinctData (runData (md, s) bumps).2 ∧ (runData (md, s) bumps).1.spotDate = md.spotDate ∧
      ∀ x, (savedData (runData (md, s) bumps).2 x).or (data (runData (md, s) bumps).1 x) = f₀ x := by
  induction bumps with
  | nil => exact fun hd h _ => ⟨hd, rfl, h.restored⟩
  | cons e rest ih =>
    obtain ⟨b, saved⟩ := e
    intro md s done hd h hs
    obtain ⟨h1, h2⟩ := hs
    rw [runData]
    obtain ⟨xs, t, hn, hx, hok, he⟩ := data_trace md b s saved
    obtain ⟨hd', hsd⟩ := data_bump_distinct md b hd saved
    have hT : ∀ b b', target b = target b' → named b = named b' := fun b b' h => by unfold named; rw [h]
    cases saved with
    | true =>
      have hnew := h1.1 rfl
      have h' := h.saveOk t hn hx (by
        intro b' hb' x hx1 hx2
        apply hnew
        unfold named at hx1 hx2
        rw [Option.mem_toList] at hx1 hx2
        exact List.mem_map.2 ⟨b', hb', by rw [hx1, hx2]⟩) hok
      obtain ⟨r1, r2, r3⟩ := ih hd' h' h2
      exact ⟨r1, r2.trans hsd, r3⟩
    | false =>
      have hold : target b ∈ done.map target := by
        by_contra hc
        exact absurd (h1.2 hc) (by simp)
      obtain ⟨b', hb', et⟩ := List.mem_map.1 hold
      have h' := h.keep t ⟨b', hb', et⟩ hT hx he
      have h'' : Session named f₀ (b :: done) _ _ := ⟨h'.restored, h'.present,
        fun x hx => by
          obtain ⟨b', h1, h2⟩ := h'.fresh x hx
          exact ⟨b', List.mem_cons_of_mem _ h1, h2⟩,
        fun c hc => by
          rcases List.mem_cons.1 hc with rfl | hc
          · have := h'.covered b' hb'
            rw [et, hT _ _ et] at this
            exact this
          · exact h'.covered c hc⟩
      obtain ⟨r1, r2, r3⟩ := ih hd' h'' h2
      exact ⟨r1, r2.trans hsd, r3⟩

end QM.Market
