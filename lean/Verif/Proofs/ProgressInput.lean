import Verif.Proofs.ProgressStart
import Verif.Proofs.PipelineAllocated
import Verif.Props.ActivityLinks
import Verif.Props.CutoffAllocation

/-! # From the files to the allocated datasets, for activities with one product -/

namespace Ocelot
open Spec

namespace Progress

variable {b : Bool}

/-! ## What the functions before the links keep -/

/-- Names and amounts of the properties. -/
def propPairs (e : Exchange) : List (String × ℚ) := e.properties.map fun p => (p.name, p.amount)

/-- The exchange has the same amount, product and link. -/
structure Kin (e e' : Exchange) : Prop where
  type : e'.type = e.type
  name : e'.name = e.name
  cls : e'.cls = e.cls
  amount : e'.amount = e.amount
  link : e'.activityLink = e.activityLink
  props : propPairs e' = propPairs e
  vol : e'.pv.isSome = e.pv.isSome
  steady : Steady e.toNumObj → Steady e'.toNumObj
  bent : ¬ IsUniform e.toNumObj → ¬ IsUniform e'.toNumObj
  mend : Mendable e.toNumObj → Mendable e'.toNumObj
  conditional : e'.conditional = e.conditional

theorem Kin.refl (e : Exchange) : Kin e e := ⟨rfl, rfl, rfl, rfl, rfl, rfl, rfl, id, id, id, rfl⟩

theorem Kin.trans {a b c : Exchange} (h : Kin a b) (h' : Kin b c) : Kin a c :=
  ⟨h'.type.trans h.type, h'.name.trans h.name, h'.cls.trans h.cls, h'.amount.trans h.amount, h'.link.trans h.link, h'.props.trans h.props,
    h'.vol.trans h.vol, h'.steady ∘ h.steady, h'.bent ∘ h.bent, h'.mend ∘ h.mend, h'.conditional.trans h.conditional⟩

theorem Kin.pv {e e' : Exchange} (h : Kin e e') : e.pv.isSome → e'.pv.isSome := fun hp => h.vol.trans hp

theorem props_pairs {e e' : Exchange} (h : List.Forall₂ (fun p q : Prop' => q.name = p.name ∧ q.amount = p.amount) e.properties e'.properties) :
    propPairs e' = propPairs e := (forall₂_map_eq' h fun a b hab => by rw [hab.1, hab.2]).symm

theorem pairs_find (e : Exchange) (n : String) : propValue e n = ((propPairs e).find? fun p => p.1 == n).map (·.2) := by
  unfold propValue propPairs
  rw [List.find?_map, Option.map_map]
  rfl

theorem pairs_value {e e' : Exchange} (h : propPairs e' = propPairs e) (n : String) : propValue e' n = propValue e n := by
  rw [pairs_find, pairs_find, h]

theorem pairs_marked (e : Exchange) : marked e = (propPairs e).any fun p => p.1 == "consequential" && p.2 == 1 := by
  unfold marked propPairs
  rw [List.any_map]
  rfl

theorem Kin.marked {e e' : Exchange} (h : Kin e e') : marked e' = marked e := by
  rw [pairs_marked, pairs_marked, h.props]

/-- What a dataset keeps apart from its exchanges. -/
structure Frame (d d' : Dataset) : Prop where
  name : d'.name = d.name
  type : d'.type = d.type
  location : d'.location = d.location
  id : d'.id = d.id
  parent : d'.parent = d.parent
  unit : d'.unit = d.unit
  startDate : d'.startDate = d.startDate
  endDate : d'.endDate = d.endDate
  suppliers : d'.suppliers = d.suppliers
  technologyLevel : d'.technologyLevel = d.technologyLevel

theorem Frame.refl (d : Dataset) : Frame d d := ⟨rfl, rfl, rfl, rfl, rfl, rfl, rfl, rfl, rfl, rfl⟩

theorem Frame.trans {a b c : Dataset} (h : Frame a b) (h' : Frame b c) : Frame a c :=
  ⟨h'.name.trans h.name, h'.type.trans h.type, h'.location.trans h.location, h'.id.trans h.id, h'.parent.trans h.parent, h'.unit.trans h.unit,
    h'.startDate.trans h.startDate, h'.endDate.trans h.endDate, h'.suppliers.trans h.suppliers, h'.technologyLevel.trans h.technologyLevel⟩

structure DsKin (d d' : Dataset) : Prop where
  frame : Frame d d'
  exchanges : List.Forall₂ Kin d.exchanges d'.exchanges

theorem kinList_refl (l : List Exchange) : List.Forall₂ Kin l l := List.forall₂_same.mpr fun e _ => .refl e

theorem DsKin.refl (d : Dataset) : DsKin d d := ⟨.refl d, kinList_refl _⟩

theorem DsKin.trans {a b c : Dataset} (h : DsKin a b) (h' : DsKin b c) : DsKin a c :=
  ⟨h.frame.trans h'.frame, forall₂_trans' h.exchanges h'.exchanges fun _ _ _ => Kin.trans⟩

theorem dsKinList_refl (l : List Dataset) : List.Forall₂ DsKin l l := List.forall₂_same.mpr fun e _ => .refl e

/-- A function on numbers that changes no amount. -/
def Gentle (f : NumObj → Except Err NumObj) : Prop :=
  ∀ o o', f o = .ok o' → o'.amount = o.amount ∧ (Steady o → Steady o') ∧ (¬ IsUniform o → ¬ IsUniform o') ∧ (Mendable o → Mendable o')

theorem steady_mendable {o : NumObj} (h : Steady o) : Mendable o := by
  unfold Steady at h
  unfold Mendable
  rcases hu : o.uncertainty with _ | u <;> simp only [hu] at h ⊢
  rcases hk : u.kind with _ | k <;> simp only [hk] at h ⊢
  cases k with
  | undefined => exact h
  | lognormal => trivial
  | normal => exact .inr h
  | triangular => exact ⟨h.1, h.2.2⟩
  | uniform =>
    obtain ⟨a, b, h1, h2, h3, h4⟩ := h
    exact ⟨a, b, h1, h2, (min_le_left a b).trans h3, h4.trans (le_max_right a b)⟩
  | other _ => exact h

theorem mendable_congr {o o' : NumObj} (ha : o'.amount = o.amount) (hu : o'.uncertainty = o.uncertainty) : Mendable o' ↔ Mendable o := by
  unfold Mendable; rw [hu, ha]

theorem steady_congr {o o' : NumObj} (ha : o'.amount = o.amount) (hu : o'.uncertainty = o.uncertainty) : Steady o' ↔ Steady o := by
  unfold Steady; rw [hu, ha]

theorem uniform_congr {o o' : NumObj} (hu : o'.uncertainty = o.uncertainty) : IsUniform o' ↔ IsUniform o := by
  unfold IsUniform; rw [hu]

theorem gentle_same {f : NumObj → Except Err NumObj} (h : ∀ o o', f o = .ok o' → o'.amount = o.amount ∧ o'.uncertainty = o.uncertainty) : Gentle f := by
  intro o o' ho
  obtain ⟨h1, h2⟩ := h o o' ho
  exact ⟨h1, (steady_congr h1 h2).mpr, fun hn hu => hn ((uniform_congr h2).mp hu), (mendable_congr h1 h2).mpr⟩

theorem Kin.mapNumE {f : NumObj → Except Err NumObj} (hf : Gentle f) {e e' : Exchange} (h : e.mapNumE f = .ok e') : Kin e e' := by
  unfold Exchange.mapNumE at h
  obtain ⟨o, ho, h⟩ := bind_eq_ok.mp h
  obtain ⟨pv, hpv, h⟩ := bind_eq_ok.mp h
  obtain ⟨ps, hps, h⟩ := bind_eq_ok.mp h
  cases h
  obtain ⟨h1, h2, h3, h4⟩ := hf _ _ ho
  refine ⟨rfl, rfl, rfl, h1, rfl, props_pairs ((mapE_ok_iff.mp hps).imp fun p q hpq => ?_), ?_, h2, h3, h4, rfl⟩
  · obtain ⟨x, hx, hq⟩ := bind_eq_ok.mp hpq
    cases hq
    exact ⟨rfl, (hf _ _ hx).1⟩
  · rcases hp : e.pv with _ | p <;> rw [hp] at hpv <;> unfold mapPvE at hpv
    · cases hpv; rfl
    · obtain ⟨q, -, hpv⟩ := bind_eq_ok.mp hpv
      cases hpv
      rfl

theorem DsKin.mapNumE {f : NumObj → Except Err NumObj} (hf : Gentle f) {d d' : Dataset} (h : d.mapNumE f = .ok d') : DsKin d d' := by
  obtain ⟨-, hd, hex, -⟩ := Dataset.mapNumE_inv h
  exact ⟨by rw [hd]; exact ⟨rfl, rfl, rfl, rfl, rfl, rfl, rfl, rfl, rfl, rfl⟩, hex.imp fun e e' => .mapNumE hf⟩

theorem DsKin.mapExchanges {g : Exchange → Exchange} (hg : ∀ e, Kin e (g e)) (d : Dataset) : DsKin d { d with exchanges := d.exchanges.map g } :=
  ⟨⟨rfl, rfl, rfl, rfl, rfl, rfl, rfl, rfl, rfl, rfl⟩, List.forall₂_map_right_iff.mpr (List.forall₂_same.mpr fun e _ => hg e)⟩

theorem DsKin.change {f : NumObj → NumObj} (hf : ∀ o, (f o).amount = o.amount ∧ (f o).uncertainty = o.uncertainty) {a : Addr} (d : Dataset) : DsKin d (d.change f a) := by
  have key : ∀ (g : Exchange → Exchange) (i : ℕ), (∀ e, Kin e (g e)) → DsKin d (changeExchange g i d) :=
    fun g i hg => ⟨⟨rfl, rfl, rfl, rfl, rfl, rfl, rfl, rfl, rfl, rfl⟩, kept_modify Kin.refl hg i _⟩
  cases a with
  | exc i =>
    refine key _ i fun e => ⟨rfl, rfl, rfl, (hf _).1, rfl, rfl, rfl, (steady_congr (hf _).1 (hf _).2).mpr, fun hn hu => hn ((uniform_congr (hf _).2).mp hu), (mendable_congr (hf _).1 (hf _).2).mpr, rfl⟩
  | pv i => exact key _ i fun e => ⟨rfl, rfl, rfl, rfl, rfl, rfl, by unfold onExchangePv; simp, id, id, id, rfl⟩
  | prop i j =>
    refine key _ i fun e => ⟨rfl, rfl, rfl, rfl, rfl, ?_, rfl, id, id, id, rfl⟩
    exact props_pairs (kept_modify (R := fun p p' : Prop' => p'.name = p.name ∧ p'.amount = p.amount) (fun _ => ⟨rfl, rfl⟩)
      (g := onProperty f) (fun p => ⟨rfl, (hf _).1⟩) j e.properties)
  | par i => exact ⟨⟨rfl, rfl, rfl, rfl, rfl, rfl, rfl, rfl, rfl, rfl⟩, kinList_refl _⟩

theorem DsKin.foldE {α : Type} {f : Dataset → α → Except Err Dataset} (hf : ∀ d a d', f d a = .ok d' → DsKin d d') {l : List α} {d d' : Dataset}
    (h : foldE f d l = .ok d') : DsKin d d' :=
  foldE_inv (I := fun _ s => DsKin d s) h (.refl d) fun _ a s s' _ hs hstep => hs.trans (hf s a s' hstep)

theorem DsKin.references {d d' : Dataset} (h : replaceImplicitReferences d = .ok d') : DsKin d d' := by
  have hr : ∀ {find : Dataset → Text → Except Err Addr} {name : Text → String} {a : Addr} (s : Dataset) (r : Text × Text) (s' : Dataset),
      replaceReference find name a s r = .ok s' → DsKin s s' := by
    intro find name a s r s' hs
    unfold replaceReference at hs
    obtain ⟨target, -, hs⟩ := bind_eq_ok.mp hs
    cases hs
    have : DsKin s (giveVariable (name r.2) target s).2 := by
      unfold giveVariable
      split
      · exact .refl _
      · exact DsKin.change (f := setVar _) (fun _ => ⟨rfl, rfl⟩) _
    exact this.trans (DsKin.change (f := replaceInFormula _ _) (fun _ => ⟨rfl, rfl⟩) _)
  refine DsKin.foldE (f := replaceReferencesAt) ?_ h
  intro s a s' hs
  unfold replaceReferencesAt at hs
  obtain ⟨s1, h1, hs⟩ := bind_eq_ok.mp hs
  exact (DsKin.foldE (hr (a := a)) h1).trans (DsKin.foldE (hr (a := a)) hs)

/-- What can be repaired can be scaled afterwards. -/
theorem repair_steady {M : MathEnv} {o o' : NumObj} (h : repair M o = .ok o') (hs : Mendable o) : Steady o' := by
    unfold repair at h
    unfold Mendable at hs
    split at h
    · cases h; exact steady_certain ‹_›
    · next u hu =>
      simp only [hu] at hs
      split at h
      · next hk => cases h; unfold Steady; simp only [hu, hk]
      · next hk => cases h; unfold Steady; simp only [hu, hk]; simpa only [hk] using hs
      · next hk =>
        simp only [hk] at hs
        unfold lognormalRepair at h
        by_cases h0 : o.amount = 0
        · rw [if_pos h0] at h
          cases h; exact steady_certain rfl
        rw [if_neg h0] at h
        obtain ⟨vp, -, h⟩ := bind_eq_ok.mp h
        split at h
        · cases h; exact steady_certain rfl
        · obtain ⟨pv, -, h⟩ := bind_eq_ok.mp h
          dsimp only at h
          split at h
          · cases h; unfold Steady; simp only [hk]; exact h0
          · split at h <;> (cases h; unfold Steady; simp only [hk]; exact h0)
      · next hk =>
        simp only [hk] at hs
        unfold normalRepair at h
        obtain ⟨vp, hvp, h⟩ := bind_eq_ok.mp h
        split at h
        · cases h; exact steady_certain rfl
        · next hne =>
          cases h
          unfold Steady
          simp only [hk]
          rcases hs with hs | hs
          · rw [hs] at hvp
            cases hvp
            exact absurd rfl hne
          · exact hs
      · next hk =>
        simp only [hk] at hs
        obtain ⟨a, ha⟩ := Option.isSome_iff_exists.mp hs.1
        obtain ⟨b, hb⟩ := Option.isSome_iff_exists.mp hs.2
        obtain ⟨o2, h1, h2, -⟩ := triangularRepair_steady (o := o) hk ha hb
        rw [h1] at h
        cases h
        exact h2
      · next hk =>
        simp only [hk] at hs
        obtain ⟨a, b, ha, hb, h1, h2⟩ := hs
        obtain ⟨o2, h3, h4⟩ := uniformRepair_steady (o := o) hk ha hb h1 h2
        rw [h3] at h
        cases h
        exact h4
      · cases h

theorem gentle_repair (M : MathEnv) : Gentle (repair M) := by
  intro o o' h
  refine ⟨by rw [repair_frame h], fun hs => repair_steady h (steady_mendable hs), ?_, fun hs => steady_mendable (repair_steady h hs)⟩
  · intro hn
    unfold repair at h
    split at h
    · cases h; exact hn
    · next u hu =>
      split at h
      · cases h; exact hn
      · cases h; exact hn
      · next hk =>
        unfold lognormalRepair at h
        split at h
        · cases h; exact not_uniform_removed o
        · obtain ⟨vp, -, h⟩ := bind_eq_ok.mp h
          split at h
          · cases h; exact not_uniform_removed o
          · obtain ⟨pv, -, h⟩ := bind_eq_ok.mp h
            dsimp only at h
            split at h
            · cases h; rintro ⟨u', hu', hk'⟩; cases hu'; dsimp only at hk'; rw [hk] at hk'; cases hk'
            · split at h <;> (cases h; rintro ⟨u', hu', hk'⟩; cases hu'; dsimp only at hk'; rw [hk] at hk'; cases hk')
      · next hk =>
        unfold normalRepair at h
        obtain ⟨vp, -, h⟩ := bind_eq_ok.mp h
        split at h
        · cases h; exact not_uniform_removed o
        · cases h; rintro ⟨u', hu', hk'⟩; cases hu'; dsimp only at hk'; rw [hk] at hk'; cases hk'
      · next hk =>
        unfold triangularRepair at h
        obtain ⟨a, ha, h⟩ := bind_eq_ok.mp h
        obtain ⟨b, hb, -⟩ := bind_eq_ok.mp h
        obtain ⟨o2, h1, -, h3⟩ := triangularRepair_steady (o := o) hk (getKey_eq_ok.mp ha) (getKey_eq_ok.mp hb)
        unfold triangularRepair at h1
        rw [ha, ebind_ok] at h1
        rw [h1] at h
        cases h
        exact h3
      · next hk => exact absurd ⟨u, hu, hk⟩ hn
      · cases h

theorem DsKin.known {d d' : Dataset} (h : fixKnownBadFormulas d = .ok d') : DsKin d d' := by
  refine DsKin.foldE (f := fixKnownStep) ?_ h
  intro d a d' h
  unfold fixKnownStep at h
  split at h
  · exact .mapNumE (gentle_same fun o o' h => by cases h; exact ⟨rfl, rfl⟩) h
  · cases h; exact .refl _

theorem DsKin.maths {ws : Char → Bool} {num : Text → Option Text} {d d' : Dataset} (h : fixMathFormulas ws num d = .ok d') : DsKin d d' :=
  .mapNumE (gentle_same fun o o' h => by
    unfold onFormula at h
    split at h
    · cases h; exact ⟨rfl, rfl⟩
    · obtain ⟨r, -, h⟩ := bind_eq_ok.mp h
      cases h; exact ⟨rfl, rfl⟩) h

theorem DsKin.pvParams (uuid : Exchange → String) (d : Dataset) : DsKin d (createPvParameters uuid d) := by
  refine ⟨⟨rfl, rfl, rfl, rfl, rfl, rfl, rfl, rfl, rfl, rfl⟩, List.forall₂_map_right_iff.mpr (List.forall₂_same.mpr fun e _ => ?_)⟩
  unfold pvParameter
  split
  · exact .refl _
  · next hp => split <;> exact ⟨rfl, rfl, rfl, rfl, rfl, rfl, by rw [hp]; rfl, id, id, id, rfl⟩

/-! ## Datasets with one reference product -/

/-- One product with a volume, classified byproducts, the allocatable ones with a volume. -/
structure Tidy (d : Dataset) : Prop where
  ref : ∃ r, refs d = [r] ∧ r.pv.isSome ∧ r.amount ≠ 0
  byproducts : ∀ e ∈ d.exchanges, e.type = .byproduct → e.cls ≠ none ∧ (e.cls = some .allocatable → e.pv.isSome)

theorem Tidy.of_kin {d d' : Dataset} (hp : Tidy d) (h : List.Forall₂ Kin d.exchanges d'.exchanges) : Tidy d' := by
  obtain ⟨r, hr, h1, h2⟩ := hp.ref
  have hf : List.Forall₂ Kin (refs d) (refs d') := forall₂_filter_rel h fun a b hab => by rw [hab.type]
  rw [hr] at hf
  rcases hd : refs d' with _ | ⟨r', t⟩ <;> rw [hd] at hf
  · cases hf
  obtain ⟨hk, ht⟩ := List.forall₂_cons.mp hf
  cases ht
  refine ⟨⟨r', hd, hk.pv h1, by rw [hk.amount]; exact h2⟩, ?_⟩
  intro e he ht
  obtain ⟨e0, he0, hk⟩ := forall₂_mem_right h he
  obtain ⟨g1, g2⟩ := hp.byproducts e0 he0 (by rw [← hk.type]; exact ht)
  exact ⟨by rw [hk.cls]; exact g1, fun hc => hk.pv (g2 (by rw [← hk.cls]; exact hc))⟩

theorem Tidy.filter {d : Dataset} (hp : Tidy d) {q : Exchange → Bool} (hq : ∀ e ∈ refs d, e.amount ≠ 0 → q e = true) :
    Tidy { d with exchanges := d.exchanges.filter q } := by
  obtain ⟨r, hr, h1, h2⟩ := hp.ref
  refine ⟨⟨r, ?_, h1, h2⟩, fun e he => hp.byproducts e (List.mem_filter.mp he).1⟩
  have : refs { d with exchanges := d.exchanges.filter q } = (refs d).filter q := by
    simp only [refs, List.filter_filter, Bool.and_comm]
  rw [this, hr, List.filter_cons, if_pos (hq r (by rw [hr]; simp) h2)]
  rfl

theorem Tidy.classified {d : Dataset} (hp : Tidy d) : Classified d := fun e he ht => (hp.byproducts e he ht).1

theorem Tidy.pv {d : Dataset} (hp : Tidy d) {e : Exchange} (he : e ∈ d.exchanges) (h : isProduction e = true) : e.pv.isSome := by
  obtain ⟨r, hr, h1, -⟩ := hp.ref
  unfold isProduction at h
  rw [Bool.or_eq_true, Bool.and_eq_true] at h
  simp only [beq_iff_eq] at h
  rcases h with h | h
  · have : e ∈ refs d := List.mem_filter.mpr ⟨he, by simpa using h⟩
    rw [hr] at this
    cases List.mem_singleton.mp this
    exact h1
  · exact (hp.byproducts e he h.1).2 h.2

theorem fillVolumes_total {d : Dataset} (hp : Tidy d) : ∃ d', fillVolumes d = .ok d' ∧ DsKin d d' := by
  unfold fillVolumes
  obtain ⟨b, hb⟩ := anyAllocatableByproduct_ok hp.classified
  rw [hb, ebind_ok]
  by_cases hbt : b = true
  · rw [if_pos hbt]
    obtain ⟨r, hr, h1, h2⟩ := hp.ref
    obtain ⟨scale, hs⟩ := (C12_biggest_outcome d).2.2 ⟨r, by rw [hr]; simp, h2⟩ fun e he _ => by
      rw [hr] at he
      cases List.mem_singleton.mp he
      exact Option.isSome_iff_ne_none.mp h1
    rw [hs, ebind_ok]
    have hone : ∀ e ∈ d.exchanges, ∃ e', fillByproduct scale e = .ok e' ∧ Kin e e' := by
      intro e he
      unfold fillByproduct isAllocatableByproduct
      by_cases ht : e.type = .byproduct
      · rw [if_pos ht]
        obtain ⟨g1, g2⟩ := hp.byproducts e he ht
        obtain ⟨c, hc⟩ := Option.ne_none_iff_exists'.mp g1
        rw [hc]
        simp only [getKey_some, ebind_ok, epure]
        by_cases hca : c = .allocatable
        · rw [if_pos (by simp [hca])]
          obtain ⟨p, hp⟩ := Option.isSome_iff_exists.mp (g2 (by rw [hc, hca]))
          unfold fillVolume
          rw [hp]
          simp only [getKey_some, ebind_ok]
          split
          · exact ⟨_, rfl, rfl, rfl, rfl, rfl, rfl, rfl, by rw [hp]; rfl, id, id, id, rfl⟩
          · exact ⟨e, rfl, .refl e⟩
        · rw [if_neg (by simpa using hca)]
          exact ⟨e, rfl, .refl e⟩
      · rw [if_neg ht]
        exact ⟨e, rfl, .refl e⟩
    obtain ⟨ex, hex⟩ := mapE_ok_of_forall fun e he => ⟨_, (hone e he).choose_spec.1⟩
    rw [hex, ebind_ok]
    refine ⟨_, rfl, ⟨rfl, rfl, rfl, rfl, rfl, rfl, rfl, rfl, rfl, rfl⟩, ?_⟩
    refine (forall₂_with_mem (mapE_ok_iff.mp hex)).imp ?_
    rintro e e' ⟨he, hee⟩
    obtain ⟨e2, g1, g2⟩ := hone e he
    rw [g1] at hee
    cases hee
    exact g2
  · rw [if_neg hbt]
    exact ⟨d, rfl, .refl d⟩

theorem volumes_total {P : PipelineEnv} {l : List Dataset} (hp : ∀ d ∈ l, Tidy d) (ss : List Step) :
    ∃ l', runSteps P ([.ensureVolumesGiven, .addPvToAllocatableByproducts, .createPvParameters] ++ ss) l = runSteps P ss l' ∧ List.Forall₂ DsKin l l' := by
  have h1 : ensureVolumesGiven l = .ok l := by
    unfold ensureVolumesGiven
    rw [forE_ok_iff.mpr, ebind_ok]; rfl
    intro d hd
    unfold checkVolumesGiven
    refine forE_ok_iff.mpr fun e he => ?_
    rw [isAllocatable_ok ((hp d hd).classified e he), ebind_ok]
    split
    · next hpr =>
      unfold checkVolumeGiven
      rw [if_neg]
      simpa [Option.isSome_iff_ne_none] using (hp d hd).pv he hpr
    · rfl
  obtain ⟨l2, h2⟩ : ∃ l2, addPvToAllocatableByproducts l = .ok l2 := mapE_ok_of_forall fun d hd => ⟨_, (fillVolumes_total (hp d hd)).choose_spec.1⟩
  have k2 : List.Forall₂ DsKin l l2 := by
    refine (forall₂_with_mem (mapE_ok_iff.mp h2)).imp ?_
    rintro d d' ⟨hd, hdd⟩
    obtain ⟨d2, g1, g2⟩ := fillVolumes_total (hp d hd)
    rw [g1] at hdd
    cases hdd
    exact g2
  refine ⟨l2.map (createPvParameters P.uuid), ?_, ?_⟩
  · simp only [List.cons_append, List.nil_append]
    rw [step_on (f := ensureVolumesGiven) rfl h1, step_on (f := addPvToAllocatableByproducts) rfl h2,
      step_on (f := fun d => .ok (d.map (createPvParameters P.uuid))) rfl rfl]
  · refine forall₂_trans' k2 (S := DsKin) ?_ fun _ _ _ => DsKin.trans
    rw [List.forall₂_map_right_iff]
    exact List.forall₂_same.mpr fun d _ => .pvParams P.uuid d

/-! ## Up to the exchanges of the consequential model -/

theorem noted_kin (e : Exchange) : Kin e { e with originalId := some e.id } := ⟨rfl, rfl, rfl, rfl, rfl, rfl, rfl, id, id, id, rfl⟩

theorem mapE_split {α β γ : Type} {f : α → Except Err β} {g : β → Except Err γ} {l : List α} {r : List γ}
    (h : mapE (fun a => f a >>= g) l = .ok r) : ∃ m, mapE f l = .ok m ∧ mapE g m = .ok r := by
  induction l generalizing r with
  | nil => exact ⟨[], rfl, h⟩
  | cons a l ih =>
    unfold mapE at h
    obtain ⟨c, hc, h⟩ := bind_eq_ok.mp h
    obtain ⟨cs, hcs, h⟩ := bind_eq_ok.mp h
    obtain ⟨b, hb, hc⟩ := bind_eq_ok.mp hc
    obtain ⟨m, hm, hmc⟩ := ih hcs
    refine ⟨b :: m, ?_, ?_⟩
    · unfold mapE; rw [hb, ebind_ok, hm, ebind_ok]; rfl
    · unfold mapE; rw [hc, ebind_ok, hmc, ebind_ok]; exact h

theorem varNames_noted (d : Dataset) : varNames (noted d) = varNames d := by
  unfold varNames noted Dataset.numObjs
  simp only [List.flatMap_map]
  rfl

/-- The functions up to `remove_consequential_exchanges`. -/
def firstSteps : List Step :=
  [.ensureIdsAreUnique, .copyOriginalExchangeId, .variableNamesAreUnique, .ensureMarketsOneProduct, .ensureMarketsNoOwnConsumption,
    .fixSpecificIssues, .replaceImplicitReferences, .repairUncertainty, .fixKnownBadFormulas, .lowercaseParameters, .fixMathFormulas,
    .replaceReservedWords, .deleteUnparsableFormulas, .ensureVolumesGiven, .addPvToAllocatableByproducts, .createPvParameters,
    .removeConsequentialExchanges]

theorem noted_refs {d : Dataset} {r : Exchange} (h : refs d = [r]) : refs (noted d) = [{ r with originalId := some r.id }] := by
  have : refs (noted d) = (refs d).map fun e => { e with originalId := some e.id } := by
    unfold refs noted
    rw [List.filter_map]
    rfl
  rw [this, h]; rfl

theorem checks_all {P : PipelineEnv} {data : List Dataset} (hids : (data.map (·.id)).Nodup) (hdis : ∀ d ∈ data, (varNames d).Nodup)
    (hone : ∀ d ∈ data, ∃ r, refs d = [r])
    (hown : ∀ d ∈ data, d.type = .market → ∀ r, refs d = [r] → ∀ e ∈ d.exchanges, e.name = r.name → e ≠ r → e.activityLink.getD "" ≠ "") (ss : List Step) :
    runSteps P ([.ensureIdsAreUnique, .copyOriginalExchangeId, .variableNamesAreUnique, .ensureMarketsOneProduct, .ensureMarketsNoOwnConsumption] ++ ss) data
      = runSteps P ss (data.map noted) := by
  have h1 : ensureIdsAreUnique data = .ok data := by
    unfold ensureIdsAreUnique distinctCount
    rw [List.dedup_eq_self.mpr hids, List.length_map, if_neg (by simp)]
  have h3 : variableNamesAreUnique (data.map noted) = .ok (data.map noted) := by
    rcases C53_unique_exact (data.map noted) with h0 | ⟨-, ds, hds, h0⟩
    · exact h0.1
    · obtain ⟨d, hd, rfl⟩ := List.mem_map.mp hds
      exact absurd (by rw [varNames_noted]; exact hdis d hd) h0
  have h4 : ensureMarketsOneProduct (data.map noted) = .ok (data.map noted) := by
    unfold ensureMarketsOneProduct
    rw [forE_ok_iff.mpr, ebind_ok]; rfl
    intro d' hd'
    obtain ⟨d, hd, rfl⟩ := List.mem_map.mp (List.mem_filter.mp hd').1
    obtain ⟨r, hr⟩ := hone d hd
    unfold checkOneReferenceProduct
    have := noted_refs hr
    unfold refs at this
    rw [this, if_neg (by simp)]
  have h5 : ensureMarketsNoOwnConsumption (data.map noted) = .ok (data.map noted) := by
    unfold ensureMarketsNoOwnConsumption
    rw [forE_ok_iff.mpr, ebind_ok]; rfl
    intro d' hd'
    obtain ⟨hd', ht⟩ := List.mem_filter.mp hd'
    obtain ⟨d, hd, rfl⟩ := List.mem_map.mp hd'
    obtain ⟨r, hr⟩ := hone d hd
    unfold checkOwnConsumption
    have := noted_refs hr
    unfold refs at this
    rw [this]
    dsimp only
    rw [if_neg]
    intro hany
    obtain ⟨x, hx, hx'⟩ := List.any_eq_true.mp hany
    obtain ⟨e, he, rfl⟩ := List.mem_map.mp hx
    simp only [Bool.and_eq_true, beq_iff_eq, bne_iff_ne] at hx'
    exact hown d hd (by simpa [noted] using ht) r hr e he hx'.1.1 (fun heq => hx'.1.2 (by rw [heq])) hx'.2
  simp only [List.cons_append, List.nil_append]
  rw [step_on (f := ensureIdsAreUnique) rfl h1, step_on (f := fun d => .ok (copyOriginalExchangeId d)) rfl rfl,
    show copyOriginalExchangeId data = data.map noted from rfl, step_on (f := variableNamesAreUnique) rfl h3,
    step_on (f := ensureMarketsOneProduct) rfl h4, step_on (f := ensureMarketsNoOwnConsumption) rfl h5]

theorem checks_total {P : PipelineEnv} {data : List Dataset} (h : Readable P data) (ss : List Step) :
    runSteps P ([.ensureIdsAreUnique, .copyOriginalExchangeId, .variableNamesAreUnique, .ensureMarketsOneProduct, .ensureMarketsNoOwnConsumption] ++ ss) data
      = runSteps P ss (data.map noted) :=
  checks_all h.ids h.distinct (fun d hd => (h.oneProduct d hd).imp fun _ hr => hr.1) h.ownProduct ss

/-- An exchange with the distribution repaired. -/
def Settled (e e' : Exchange) : Prop := Kin e e' ∧ (Mendable e.toNumObj → Steady e'.toNumObj)

theorem Settled.kin {a b c : Exchange} (h : Settled a b) (h' : Kin b c) : Settled a c := ⟨h.1.trans h', fun hm => h'.steady (h.2 hm)⟩

theorem Kin.settled {a b c : Exchange} (h : Kin a b) (h' : Settled b c) : Settled a c := ⟨h.trans h'.1, fun hm => h'.2 (h.mend hm)⟩

structure DsSettled (d d' : Dataset) : Prop where
  frame : Frame d d'
  exchanges : List.Forall₂ Settled d.exchanges d'.exchanges

theorem DsSettled.trans {a b c : Dataset} (h : DsSettled a b) (h' : DsKin b c) : DsSettled a c :=
  ⟨h.frame.trans h'.frame, forall₂_trans' h.exchanges h'.exchanges fun _ _ _ => Settled.kin⟩

theorem DsKin.settled {a b c : Dataset} (h : DsKin a b) (h' : DsSettled b c) : DsSettled a c :=
  ⟨h.frame.trans h'.frame, forall₂_trans' h.exchanges h'.exchanges fun _ _ _ => Kin.settled⟩

theorem DsSettled.kin {a b : Dataset} (h : DsSettled a b) : DsKin a b := ⟨h.frame, h.exchanges.imp fun _ _ h => h.1⟩

theorem DsSettled.repair {M : MathEnv} {d d' : Dataset} (h : repairAll M d = .ok d') : DsSettled d d' := by
  obtain ⟨-, hd, hex, -⟩ := Dataset.mapNumE_inv h
  refine ⟨(DsKin.mapNumE (gentle_repair M) h).frame, hex.imp fun e e' he => ⟨.mapNumE (gentle_repair M) he, fun hm => ?_⟩⟩
  unfold Exchange.mapNumE at he
  obtain ⟨o, ho, he⟩ := bind_eq_ok.mp he
  obtain ⟨pv, -, he⟩ := bind_eq_ok.mp he
  obtain ⟨ps, -, he⟩ := bind_eq_ok.mp he
  cases he
  exact repair_steady ho hm

/-- What is left of a dataset after the first functions. -/
def Seen (d d' : Dataset) : Prop := Frame d d' ∧ List.Forall₂ Settled (d.exchanges.filter (visible d)) d'.exchanges

theorem fixed_total {P : PipelineEnv} {l r : List Dataset} (h : mapE (fixEcoinventParameters P.M P.text) l = .ok r) (ss : List Step) :
    runSteps P ([.fixSpecificIssues, .replaceImplicitReferences, .repairUncertainty, .fixKnownBadFormulas, .lowercaseParameters, .fixMathFormulas,
    .replaceReservedWords, .deleteUnparsableFormulas] ++ ss) l = runSteps P ss r ∧ List.Forall₂ (fun d d' => DsSettled (fixSpecificIssues d) d') l r := by
  unfold fixEcoinventParameters at h
  obtain ⟨l1, h1, h⟩ := mapE_split h
  obtain ⟨l2, h2, h⟩ := mapE_split h
  obtain ⟨l3, h3, h⟩ := mapE_split h
  obtain ⟨l4, h4, h⟩ := mapE_split h
  obtain ⟨l5, h5, h⟩ := mapE_split h
  obtain ⟨l6, h6, h⟩ := mapE_split h
  constructor
  · simp only [List.cons_append, List.nil_append]
    rw [step_on (f := fun d => .ok (d.map fixSpecificIssues)) rfl rfl,
      step_on (f := mapE replaceImplicitReferences) rfl (by rw [mapE_map]; exact h1),
      step_on (f := mapE (repairAll P.M)) rfl h2, step_on (f := mapE fixKnownBadFormulas) rfl h3,
      step_on (f := mapE (lowercaseAllParameters P.text.lower)) rfl h4, step_on (f := mapE (fixMathFormulas P.text.ws P.text.num)) rfl h5,
      step_on (f := mapE (replaceReservedWords P.text.words P.text.parses)) rfl h6,
      step_on (f := mapE (deleteUnparsableFormulas P.text.parses)) rfl h]
  · have k2 := forall₂_trans' (mapE_ok_iff.mp h1) (mapE_ok_iff.mp h2) (T := fun d d' => DsSettled (fixSpecificIssues d) d') fun a b c hab hbc =>
      (DsKin.references hab).settled (.repair hbc)
    have k3 := forall₂_trans' k2 (mapE_ok_iff.mp h3) (T := fun d d' => DsSettled (fixSpecificIssues d) d') fun a b c hab hbc => hab.trans (.known hbc)
    have k4 := forall₂_trans' k3 (mapE_ok_iff.mp h4) (T := fun d d' => DsSettled (fixSpecificIssues d) d') fun a b c hab hbc =>
      hab.trans (.mapNumE (gentle_same fun o o' h => by cases h; exact ⟨rfl, rfl⟩) hbc)
    have k5 := forall₂_trans' k4 (mapE_ok_iff.mp h5) (T := fun d d' => DsSettled (fixSpecificIssues d) d') fun a b c hab hbc => hab.trans (.maths hbc)
    have k6 := forall₂_trans' k5 (mapE_ok_iff.mp h6) (T := fun d d' => DsSettled (fixSpecificIssues d) d') fun a b c hab hbc =>
      hab.trans (.mapNumE (gentle_same fun o o' h => by cases h; exact ⟨rfl, rfl⟩) hbc)
    exact forall₂_trans' k6 (mapE_ok_iff.mp h) (T := fun d d' => DsSettled (fixSpecificIssues d) d') fun a b c hab hbc =>
      hab.trans (.mapNumE (gentle_same fun o o' h => by cases h; exact ⟨rfl, rfl⟩) hbc)

theorem Readable.tidy {P : PipelineEnv} {data : List Dataset} (h : Readable P data) {d : Dataset} (hd : d ∈ data) : Tidy d :=
  ⟨(h.oneProduct d hd).imp fun _ hr => ⟨hr.1, hr.2.1, hr.2.2.1⟩, h.byproducts d hd⟩

theorem Readable.unmarked {P : PipelineEnv} {data : List Dataset} (h : Readable P data) {d : Dataset} (hd : d ∈ data) : ∀ r ∈ refs d, marked r = false := by
  obtain ⟨r, hr, -, -, hm⟩ := h.oneProduct d hd
  rw [hr]
  simpa using hm

theorem tidy_noted {d : Dataset} (h : Tidy d) : Tidy (noted d) :=
  h.of_kin (DsKin.mapExchanges noted_kin d).exchanges

theorem tidy_fixed {d : Dataset} (h : Tidy d) : Tidy (fixSpecificIssues d) := by
  rw [fixSpecificIssues_eq]
  refine h.filter fun e _ ha => ?_
  unfold refineryFilter
  split <;> simp [ha]

theorem first_total {P : PipelineEnv} {data : List Dataset} (h : Readable P data) (ss : List Step) :
    ∃ l, runSteps P (firstSteps ++ ss) data = runSteps P ss l ∧ List.Forall₂ Seen data l := by
  obtain ⟨r, hr⟩ : ∃ r, mapE (fixEcoinventParameters P.M P.text) (data.map noted) = .ok r := by
    refine mapE_ok_of_forall fun d' hd' => ?_
    obtain ⟨d, hd, rfl⟩ := List.mem_map.mp hd'
    exact h.cleanup d hd
  have ht : ∀ d ∈ r, Tidy d := by
    intro d' hd'
    obtain ⟨d1, hd1, hk⟩ := forall₂_mem_right (fixed_total hr []).2 hd'
    obtain ⟨d, hd, rfl⟩ := List.mem_map.mp hd1
    exact (tidy_fixed (tidy_noted (h.tidy hd))).of_kin hk.kin.exchanges
  obtain ⟨v, hv, kv⟩ := volumes_total (P := P) ht (.removeConsequentialExchanges :: ss)
  refine ⟨removeConsequentialExchanges v, ?_, ?_⟩
  · have : firstSteps ++ ss = [.ensureIdsAreUnique, .copyOriginalExchangeId, .variableNamesAreUnique, .ensureMarketsOneProduct, .ensureMarketsNoOwnConsumption] ++
        ([.fixSpecificIssues, .replaceImplicitReferences, .repairUncertainty, .fixKnownBadFormulas, .lowercaseParameters, .fixMathFormulas,
        .replaceReservedWords, .deleteUnparsableFormulas] ++ ([.ensureVolumesGiven, .addPvToAllocatableByproducts, .createPvParameters] ++
        (.removeConsequentialExchanges :: ss))) := rfl
    rw [this, checks_total h, (fixed_total hr _).1, hv, step_on (f := fun d => .ok (removeConsequentialExchanges d)) rfl rfl]
  · have hk := forall₂_trans' (fixed_total hr []).2 kv (T := fun d d' => DsSettled (fixSpecificIssues d) d') fun _ _ _ hab hbc => hab.trans hbc
    rw [List.forall₂_map_left_iff] at hk
    unfold removeConsequentialExchanges
    rw [List.forall₂_map_right_iff]
    refine hk.imp fun d d' k => ?_
    rw [fixSpecificIssues_eq] at k
    have f1 : Frame d { noted d with exchanges := (noted d).exchanges.filter (refineryFilter (noted d)) } := ⟨rfl, rfl, rfl, rfl, rfl, rfl, rfl, rfl, rfl, rfl⟩
    refine ⟨(f1.trans k.frame).trans ⟨rfl, rfl, rfl, rfl, rfl, rfl, rfl, rfl, rfl, rfl⟩, ?_⟩
    have k0 : List.Forall₂ Kin (d.exchanges.filter (refineryFilter d)) ((noted d).exchanges.filter (refineryFilter (noted d))) := by
      refine forall₂_filter_rel (p := refineryFilter d) ((DsKin.mapExchanges noted_kin d).exchanges) fun a b hab => ?_
      unfold refineryFilter
      rw [hab.name, hab.amount]; rfl
    have k1 := forall₂_trans' k0 k.exchanges fun _ _ _ => Kin.settled
    have k2 := forall₂_filter_rel (p := fun e => !marked e) (q := fun e => !marked e) k1 fun a b hab => by rw [hab.1.marked]
    rw [List.filter_filter] at k2
    refine List.Forall₂.imp (fun _ _ h => h) ?_
    have hq : (fun a => !marked a && refineryFilter d a) = visible d := by
      funext a
      unfold visible refineryFilter
      congr 1
      split
      · next hn => simp [hn]
      · next hn => simp [hn]
    rw [hq] at k2
    exact k2

/-! ## The links -/

/-- The exchange has the same amount and product, and an empty link is as good as none. -/
structure Akin (e e' : Exchange) : Prop where
  type : e'.type = e.type
  name : e'.name = e.name
  cls : e'.cls = e.cls
  amount : e'.amount = e.amount
  link : e'.activityLink.getD "" = e.activityLink.getD ""
  pv : e.pv.isSome → e'.pv.isSome
  props : propPairs e' = propPairs e
  conditional : e'.conditional = e.conditional

theorem Akin.kin {a b c : Exchange} (h : Akin a b) (h' : Kin b c) : Akin a c :=
  ⟨h'.type.trans h.type, h'.name.trans h.name, h'.cls.trans h.cls, h'.amount.trans h.amount, by rw [h'.link]; exact h.link,
    h'.pv ∘ h.pv, h'.props.trans h.props, h'.conditional.trans h.conditional⟩

def DsAkin (d d' : Dataset) : Prop := Frame d d' ∧ List.Forall₂ Akin d.exchanges d'.exchanges

theorem DsAkin.kin {a b c : Dataset} (h : DsAkin a b) (h' : DsKin b c) : DsAkin a c :=
  ⟨h.1.trans h'.frame, forall₂_trans' h.2 h'.exchanges fun _ _ _ => Akin.kin⟩

def childLink (d : Dataset) (e : Exchange) : Exchange :=
  if d.parent.getD "" ≠ "" ∧ isProduction e = false ∧ e.activityLink = d.parent then { e with activityLink := some d.id } else e

def forgetLink (e : Exchange) : Exchange := if e.activityLink = some removedLink35 then { e with activityLink := none } else e

theorem child_total {d : Dataset} (h : Classified d) : updateParentChild d = .ok { d with exchanges := d.exchanges.map (childLink d) } := by
  by_cases h0 : d.parent.getD "" = ""
  · have : d.exchanges.map (childLink d) = d.exchanges := by
      refine (List.map_congr_left fun e _ => ?_).trans (List.map_id _)
      unfold childLink
      rw [if_neg (by simp [h0])]
      rfl
    have hd : { d with exchanges := d.exchanges.map (childLink d) } = d := by rw [this]
    rw [hd]
    unfold updateParentChild
    rcases hp : d.parent with _ | p
    · rfl
    · rw [hp] at h0
      exact if_pos h0
  · obtain ⟨p, hp⟩ : ∃ p, d.parent = some p := by
      rcases hp : d.parent with _ | p
      · rw [hp] at h0; exact absurd rfl h0
      · exact ⟨p, rfl⟩
    have h1 : p ≠ "" := by rw [hp] at h0; exact h0
    have : mapE (redirectToChild p d.id) d.exchanges = .ok (d.exchanges.map (childLink d)) := by
      refine (mapE_congr (g := fun e => .ok (childLink d e)) fun e he => ?_).trans (mapE_pure _ _)
      unfold redirectToChild childLink
      rw [isAllocatable_ok (h e he), ebind_ok, hp]
      by_cases hpr : isProduction e = true
      · rw [if_pos hpr, if_neg (by simp [hpr])]; rfl
      · rw [if_neg hpr]
        by_cases hl : e.activityLink = some p
        · rw [if_pos hl, if_pos (by simp [hl, h1, hpr])]; rfl
        · rw [if_neg hl, if_neg (by simp [hl])]; rfl
    have h2 : updateParentChild d = (do
        let ex ← mapE (redirectToChild p d.id) d.exchanges
        return { d with exchanges := ex }) := by
      unfold updateParentChild
      rw [hp]
      exact if_neg h1
    rw [h2, this, ebind_ok]; rfl

theorem dropRpLink_frame (e : Exchange) : dropRpLink e = { e with activityLink := (dropRpLink e).activityLink } := by
  unfold dropRpLink; split <;> rfl

theorem dropZeroLink_frame (e : Exchange) : dropZeroLink e = { e with activityLink := (dropZeroLink e).activityLink } := by
  unfold dropZeroLink; split <;> rfl

theorem childLink_frame (d : Dataset) (e : Exchange) : childLink d e = { e with activityLink := (childLink d e).activityLink } := by
  unfold childLink; split <;> rfl

theorem forgetLink_frame (e : Exchange) : forgetLink e = { e with activityLink := (forgetLink e).activityLink } := by
  unfold forgetLink; split <;> rfl

def relinked (d : Dataset) (e : Exchange) : Exchange := forgetLink (childLink d (dropZeroLink (dropRpLink e)))

theorem relinked_frame (d : Dataset) (e : Exchange) : relinked d e = { e with activityLink := (relinked d e).activityLink } := by
  unfold relinked
  rw [forgetLink_frame, childLink_frame, dropZeroLink_frame, dropRpLink_frame]

/-- The link after the four functions. -/
theorem relinked_link (d : Dataset) (e : Exchange) :
    (relinked d e).activityLink.getD "" = (effectiveLink d e).getD "" := by
  have hnone : ∀ x : Exchange, x.activityLink.getD "" = "" → ((forgetLink (childLink d x)).activityLink.getD "") = "" := by
    intro x hx
    have h1 : childLink d x = x := by
      unfold childLink
      rw [if_neg]
      rintro ⟨h1, -, h3⟩
      rw [h3] at hx
      exact h1 hx
    rw [h1]
    unfold forgetLink
    split
    · rfl
    · exact hx
  have hprod : ∀ x : Exchange, (dropZeroLink (dropRpLink x)).type = x.type ∧ (dropZeroLink (dropRpLink x)).cls = x.cls := by
    intro x
    rw [dropZeroLink_frame, dropRpLink_frame]
    exact ⟨rfl, rfl⟩
  by_cases hl : e.activityLink.getD "" = ""
  · have h1 : dropRpLink e = e := by
      unfold dropRpLink
      rw [if_neg]
      rintro ⟨-, h⟩
      rcases he : e.activityLink with _ | l <;> rw [he] at h hl
      · cases h
      · cases hl; simp [truthy] at h
    have h2 : dropZeroLink e = e := by
      unfold dropZeroLink
      rw [if_neg]
      rintro ⟨-, h⟩
      rcases he : e.activityLink with _ | l <;> rw [he] at h hl
      · cases h
      · cases hl; simp [truthy] at h
    unfold relinked
    rw [h1, h2, hnone e hl]
    unfold effectiveLink
    dsimp only
    have h3 : ∀ o : Option String, o.getD "" = "" → ((if (if d.parent.getD "" ≠ "" ∧ isProduction e = false ∧ o = d.parent then some d.id else o) = some forbiddenLink then none
        else if d.parent.getD "" ≠ "" ∧ isProduction e = false ∧ o = d.parent then some d.id else o) : Option String).getD "" = "" := by
      intro o ho
      rw [if_neg (c := d.parent.getD "" ≠ "" ∧ isProduction e = false ∧ o = d.parent) (by rintro ⟨h1, -, h3⟩; rw [h3] at ho; exact h1 ho)]
      split
      · rfl
      · exact ho
    split
    · exact (h3 none rfl).symm
    · exact (h3 _ hl).symm
  · have htr : truthy e.activityLink = true := by
      rcases he : e.activityLink with _ | l <;> rw [he] at hl
      · exact absurd rfl hl
      · simpa [truthy] using hl
    unfold effectiveLink relinked
    dsimp only
    by_cases ht : e.type = .referenceProduct ∨ e.type = .droppedProduct ∨ e.amount = 0
    · rw [if_pos ht]
      have h1 : (dropZeroLink (dropRpLink e)).activityLink = none := by
        unfold dropRpLink
        by_cases h2 : e.type = .referenceProduct ∨ e.type = .droppedProduct
        · rw [if_pos ⟨h2, htr⟩]
          unfold dropZeroLink
          rw [if_neg (by simp [truthy])]
        · rw [if_neg (fun h => h2 h.1)]
          have h3 : e.amount = 0 := by tauto
          unfold dropZeroLink
          rw [if_pos ⟨h3, htr⟩]
      rw [hnone _ (by rw [h1]; rfl)]
      rw [if_neg (c := d.parent.getD "" ≠ "" ∧ isProduction e = false ∧ none = d.parent) (by rintro ⟨h1, -, h3⟩; rw [← h3] at h1; exact h1 rfl)]
      rfl
    · rw [if_neg ht]
      have h1 : dropRpLink e = e := by unfold dropRpLink; rw [if_neg (by tauto)]
      have h2 : dropZeroLink e = e := by unfold dropZeroLink; rw [if_neg (by tauto)]
      rw [h1, h2]
      unfold childLink
      by_cases h4 : d.parent.getD "" ≠ "" ∧ isProduction e = false ∧ e.activityLink = d.parent
      · rw [if_pos h4, if_pos h4]
        unfold forgetLink
        dsimp only
        split <;> (split <;> first | rfl | (exfalso; tauto))
      · rw [if_neg h4, if_neg h4]
        unfold forgetLink
        split <;> (split <;> first | rfl | (exfalso; tauto))

def relinkedDs (d : Dataset) : Dataset := { d with exchanges := d.exchanges.map (relinked d) }

theorem Tidy.ref_map {d : Dataset} {g : Exchange → Exchange} (hp : Tidy d) (hg : ∀ e, g e = { e with activityLink := (g e).activityLink }) :
    Tidy { d with exchanges := d.exchanges.map g } := by
  obtain ⟨r, hr, h1, h2⟩ := hp.ref
  have ht : ∀ e, (g e).type = e.type := fun e => by rw [hg]
  refine ⟨⟨g r, ?_, by rw [hg]; exact h1, by rw [hg]; exact h2⟩, ?_⟩
  · have : refs { d with exchanges := d.exchanges.map g } = (refs d).map g := by
      unfold refs
      dsimp only
      rw [List.filter_map]
      refine congrArg _ (List.filter_congr fun e _ => ?_)
      rw [Function.comp_apply, ht]
    rw [this, hr]; rfl
  · intro e' he'
    obtain ⟨e, he, rfl⟩ := List.mem_map.mp he'
    rw [hg]
    exact hp.byproducts e he

theorem links_total {P : PipelineEnv} {l : List Dataset} (hp : ∀ d ∈ l, Tidy d) (ss : List Step) :
    runSteps P ([.dropRpActivityLinks, .dropZeroAmountActivityLinks, .updateParentChild, .fix35ActivityLinks] ++ ss) l = runSteps P ss (l.map relinkedDs) := by
  simp only [List.cons_append, List.nil_append]
  rw [step_on (f := fun d => .ok (dropRpActivityLinks d)) rfl rfl, step_on (f := fun d => .ok (dropZeroAmountActivityLinks d)) rfl rfl]
  have h3 : updateActivityLinkParentChild (dropZeroAmountActivityLinks (dropRpActivityLinks l)) =
      .ok (l.map fun d => { d with exchanges := d.exchanges.map fun e => childLink d (dropZeroLink (dropRpLink e)) }) := by
    unfold updateActivityLinkParentChild dropZeroAmountActivityLinks dropRpActivityLinks
    rw [List.map_map, mapE_map, ← mapE_pure]
    apply mapE_congr
    intro d hd
    have hc : Tidy { { d with exchanges := d.exchanges.map dropRpLink } with exchanges := (d.exchanges.map dropRpLink).map dropZeroLink } :=
      ((hp d hd).ref_map dropRpLink_frame).ref_map dropZeroLink_frame
    refine (child_total hc.classified).trans ?_
    simp only [List.map_map]
    rfl
  rw [step_on (f := updateActivityLinkParentChild) rfl h3, step_on (f := fun d => .ok (fix35ActivityLinks d)) rfl rfl]
  congr 1
  unfold fix35ActivityLinks
  rw [List.map_map]
  refine List.map_congr_left fun d _ => ?_
  simp only [Function.comp_apply, List.map_map]
  rfl

theorem seen_tidy {d d' : Dataset} (hp : Tidy d) (hm : ∀ r ∈ refs d, marked r = false) (h : Seen d d') : Tidy d' := by
  have h1 : Tidy { d with exchanges := d.exchanges.filter (visible d) } := hp.filter fun e he ha => by
    unfold visible
    simp [ha, hm e he]
  exact h1.of_kin (h.2.imp fun _ _ h => h.1)

theorem seen_akin {d d' : Dataset} (h : Seen d d') : DsAkin (prepared d) (relinkedDs d') := by
  refine ⟨⟨h.1.name, h.1.type, h.1.location, h.1.id, h.1.parent, h.1.unit, h.1.startDate, h.1.endDate, h.1.suppliers, h.1.technologyLevel⟩, ?_⟩
  unfold prepared relinkedDs
  dsimp only
  rw [List.forall₂_map_left_iff, List.forall₂_map_right_iff]
  refine h.2.imp fun e e' he => ?_
  obtain ⟨hk, -⟩ := he
  have heff : effectiveLink d' e' = effectiveLink d e := by
    unfold effectiveLink
    rw [hk.type, hk.amount, hk.link, h.1.parent, h.1.id, show isProduction e' = isProduction e by unfold isProduction; rw [hk.type, hk.cls]]
  have hl := relinked_link d' e'
  rw [heff] at hl
  rw [relinked_frame]
  exact ⟨hk.type, hk.name, hk.cls, hk.amount, hl, hk.pv, hk.props, hk.conditional⟩

theorem akin_refs {d d' : Dataset} (h : DsAkin d d') {r : Exchange} (hr : refs d = [r]) : ∃ r', refs d' = [r'] ∧ Akin r r' := by
  have hf : List.Forall₂ Akin (refs d) (refs d') := forall₂_filter_rel h.2 fun a b hab => by rw [hab.type]
  rw [hr] at hf
  rcases hd : refs d' with _ | ⟨r', t⟩ <;> rw [hd] at hf
  · cases hf
  obtain ⟨hk, ht⟩ := List.forall₂_cons.mp hf
  cases ht
  exact ⟨r', rfl, hk⟩

/-! ## The volumes of the links -/

theorem DsKin.applied (ws : List Contribution) (d : Dataset) : DsKin d (appliedDs ws d) := by
  unfold appliedDs
  refine .mapExchanges (fun e => ?_) d
  have h := appliedExc_frame ws d.id e
  have hp : (appliedExc ws d.id e).pv.isSome = e.pv.isSome := by
    unfold appliedExc
    split
    · simp
    · rfl
  rw [h]
  exact ⟨rfl, rfl, rfl, rfl, rfl, rfl, hp, id, id, id, rfl⟩

theorem DsKin.transforming {data out : List Dataset} (h : updateTransformingVolumes data = .ok out) : List.Forall₂ DsKin data out := by
  unfold updateTransformingVolumes at h
  refine (mapE_ok_iff.mp h).imp fun d d' hd => ?_
  split at hd
  · obtain ⟨ex, hex, hd⟩ := bind_eq_ok.mp hd
    cases hd
    refine ⟨⟨rfl, rfl, rfl, rfl, rfl, rfl, rfl, rfl, rfl, rfl⟩, (mapE_ok_iff.mp hex).imp fun e e' he => ?_⟩
    unfold updateProduction at he
    obtain ⟨b, -, he⟩ := bind_eq_ok.mp he
    split at he
    · obtain ⟨p, hp, he⟩ := bind_eq_ok.mp he
      cases he; exact ⟨rfl, rfl, rfl, rfl, rfl, rfl, by rw [getKey_eq_ok.mp hp]; rfl, id, id, id, rfl⟩
    · cases he; exact .refl _
  · cases hd; exact .refl _

/-! ## Orderly databases stay orderly -/

/-- The exchange has the same product, an amount if the other has one, and an empty link is as good as none. -/
structure Alike (e e' : Exchange) : Prop where
  type : e'.type = e.type
  name : e'.name = e.name
  cls : e'.cls = e.cls
  live : isProduction e = true → (e'.amount = 0 ↔ e.amount = 0)
  link : e'.activityLink.getD "" = e.activityLink.getD ""
  pv : e.pv.isSome → e'.pv.isSome

theorem Akin.alike {e e' : Exchange} (h : Akin e e') : Alike e e' := ⟨h.type, h.name, h.cls, fun _ => by rw [h.amount], h.link, h.pv⟩

def DsAlike (d d' : Dataset) : Prop := Frame d d' ∧ List.Forall₂ Alike d.exchanges d'.exchanges

theorem DsAkin.alike {d d' : Dataset} (h : DsAkin d d') : DsAlike d d' := ⟨h.1, h.2.imp fun _ _ => Akin.alike⟩

theorem isProduction_ref {e : Exchange} (h : e.type = .referenceProduct) : isProduction e = true := by
  unfold isProduction; rw [h]; rfl

section
variable {k k' : List Dataset}

theorem alike_refs {d d' : Dataset} (h : DsAlike d d') {r : Exchange} (hr : refs d = [r]) : ∃ r', refs d' = [r'] ∧ Alike r r' := by
  have hf : List.Forall₂ Alike (refs d) (refs d') := forall₂_filter_rel h.2 fun a b hab => by rw [hab.type]
  rw [hr] at hf
  rcases hd : refs d' with _ | ⟨r', t⟩ <;> rw [hd] at hf
  · cases hf
  obtain ⟨hk, ht⟩ := List.forall₂_cons.mp hf
  cases ht
  exact ⟨r', rfl, hk⟩

theorem alike_link {e e' : Exchange} (h : Alike e e') {l : String} (hl : e'.activityLink = some l) (h0 : l ≠ "") : e.activityLink = some l := by
  have := h.link
  rw [hl] at this
  rcases he : e.activityLink with _ | m <;> rw [he] at this
  · exact absurd this h0
  · simp only [Option.getD_some] at this
    rw [this]

theorem alike_link' {e e' : Exchange} (h : Alike e e') {l : String} (hl : e.activityLink = some l) (h0 : l ≠ "") : e'.activityLink = some l := by
  have := h.link
  rw [hl] at this
  rcases he : e'.activityLink with _ | m <;> rw [he] at this
  · exact absurd this.symm h0
  · simp only [Option.getD_some] at this
    rw [this]

theorem head_map_eq {α β γ : Type} {R : α → β → Prop} {l : List α} {l' : List β} (h : List.Forall₂ R l l') {f : α → γ} {g : β → γ}
    (hfg : ∀ a b, R a b → f a = g b) : l.head?.map f = l'.head?.map g := by
  cases h with
  | nil => rfl
  | cons h _ => simp [hfg _ _ h]

theorem alike_product {d d' : Dataset} (h : DsAlike d d') : product d' = product d := by
  have hf : List.Forall₂ Alike (refs d) (refs d') := forall₂_filter_rel h.2 fun a b hab => by rw [hab.type]
  unfold product
  rw [head_map_eq hf fun a b hab => hab.name.symm]

theorem alike_live {d d' : Dataset} (h : DsAlike d d') : liveProducts d' = liveProducts d := by
  have h1 : List.Forall₂ Alike (production d) (production d') := forall₂_filter_rel h.2 fun a b hab => by
    unfold isProduction; rw [hab.type, hab.cls]
  have h2 : List.Forall₂ (fun a b => a ∈ production d ∧ Alike a b) ((production d).filter fun e => e.amount != 0) ((production d').filter fun e => e.amount != 0) :=
    forall₂_filter_rel (forall₂_with_mem h1) fun a b hab => by
      have := hab.2.live (List.mem_filter.mp hab.1).2
      rw [Bool.eq_iff_iff]
      simp only [bne_iff_ne, ne_eq, this]
  unfold liveProducts
  exact (forall₂_map_eq' h2 fun a b hab => hab.2.name.symm).symm

theorem alike_group (hk : List.Forall₂ DsAlike k k') {d d' : Dataset} (h : DsAlike d d') :
    List.Forall₂ DsAlike (activityGroup k d) (activityGroup k' d') := by
  refine forall₂_filter_rel hk fun a b hab => ?_
  refine decide_eq_decide.mpr ?_
  unfold SameActivity
  rw [alike_live hab, alike_live h, hab.1.name, h.1.name]

theorem alike_relabelled (hk : List.Forall₂ DsAlike k k') {d d' : Dataset} (h : DsAlike d d') : Relabelled k' d' ↔ Relabelled k d := by
  have hg := alike_group hk h
  unfold Relabelled
  rw [h.1.location, ← hg.length_eq, head_map_eq hg fun a b hab => hab.1.type.symm]

theorem alike_place (hk : List.Forall₂ DsAlike k k') {d d' : Dataset} (h : DsAlike d d') : place k' d' = place k d := by
  unfold place
  by_cases hr : Relabelled k d
  · rw [if_pos hr, if_pos ((alike_relabelled hk h).mpr hr)]
  · rw [if_neg hr, if_neg fun hn => hr ((alike_relabelled hk h).mp hn), h.1.location]

theorem alike_sig (hk : List.Forall₂ DsAlike k k') {d d' : Dataset} (h : DsAlike d d') : finalSig k' d' = finalSig k d := by
  unfold finalSig
  rw [h.1.name, h.1.type, alike_place hk h, alike_product h]

theorem alike_code (lower md5 : String → String) (hk : List.Forall₂ DsAlike k k') {d d' : Dataset} (h : DsAlike d d') :
    finalCode lower md5 k' d' = finalCode lower md5 k d := by
  unfold finalCode identity
  dsimp only
  rw [h.1.name, h.1.unit, alike_place hk h, alike_product h, h.1.startDate, h.1.endDate]

theorem Single.alike {d d' : Dataset} (hs : Single b d) (h : DsAlike d d')
    (hn : ∀ e ∈ d'.exchanges, Steady e.toNumObj ∧ (e.type = .byproduct → Bendable b e.toNumObj)) : Single b d' := by
  obtain ⟨r, hr, h1, h2, h3⟩ := hs.ref
  obtain ⟨r', hr', hk⟩ := alike_refs h hr
  refine ⟨⟨r', hr', hk.pv h1, by rw [ne_eq, hk.live (isProduction_ref (by simpa using (List.mem_filter.mp (show r ∈ refs d by rw [hr]; simp)).2))]; exact h2, fun ht => by rw [hk.cls]; exact h3 (by rw [← h.1.type]; exact ht)⟩, ?_, hn,
    by rw [h.1.suppliers]; exact hs.fresh, by rw [h.1.type, h.1.name, h.1.location]; exact hs.pipeline⟩
  · intro e' he' ht
    obtain ⟨e, he, hk⟩ := forall₂_mem_right h.2 he'
    rw [hk.cls]
    exact hs.classified e he (by rw [← hk.type]; exact ht)

theorem Orderly.alike {T : Topology} {lower md5 : String → String} (ho : Orderly b T lower md5 k) (hk : List.Forall₂ DsAlike k k')
    (hn : ∀ d ∈ k', ∀ e ∈ d.exchanges, Steady e.toNumObj ∧ (e.type = .byproduct → Bendable b e.toNumObj)) : Orderly b T lower md5 k' := by
  have hsig : k'.map (finalSig k') = k.map (finalSig k) := (forall₂_map_eq' hk fun a b hab => (alike_sig hk hab).symm).symm
  have hcode : k'.map (finalCode lower md5 k') = k.map (finalCode lower md5 k) := (forall₂_map_eq' hk fun a b hab => (alike_code lower md5 hk hab).symm).symm
  refine ⟨?_, ?_, by rw [hsig]; exact ho.db, ⟨by rw [hcode]; exact ho.codes.1, ?_⟩, ?_, ?_⟩
  · intro d' hd'
    obtain ⟨d, hd, h⟩ := forall₂_mem_right hk hd'
    exact (ho.single d hd).alike h (hn d' hd')
  · intro d' hd' hr
    obtain ⟨d, hd, h⟩ := forall₂_mem_right hk hd'
    have h1 := ho.oneGlobal d hd ((alike_relabelled hk h).mp hr)
    have h2 : List.Forall₂ DsAlike ((activityGroup k d).filter fun o => o.location == "GLO") ((activityGroup k' d').filter fun o => o.location == "GLO") :=
      forall₂_filter_rel (alike_group hk h) fun a b hab => by rw [hab.1.location]
    rw [← h2.length_eq]
    exact h1
  · intro d' hd'
    obtain ⟨d, hd, h⟩ := forall₂_mem_right hk hd'
    rw [alike_code lower md5 hk h]
    exact ho.codes.2 d hd
  · intro d' hd' e' he' h1 h2 l hl h0
    obtain ⟨d, hd, h⟩ := forall₂_mem_right hk hd'
    obtain ⟨e, he, hke⟩ := forall₂_mem_right h.2 he'
    obtain ⟨t, ht, hti⟩ := ho.links d hd e he (by rw [← hke.type]; exact h1) (by rw [← hke.type]; exact h2) l (alike_link hke hl h0) h0
    obtain ⟨t', ht', htk⟩ := forall₂_mem_left hk ht
    exact ⟨t', ht', by rw [htk.1.id]; exact hti⟩
  · intro d' hd' hg e' he' h1
    obtain ⟨d, hd, h⟩ := forall₂_mem_right hk hd'
    obtain ⟨e, he, hke⟩ := forall₂_mem_right h.2 he'
    rw [hsig, hke.name]
    rcases ho.inputs d hd (by rw [← h.1.type]; exact hg) e he (by rw [← hke.type]; exact h1) with hs | ⟨l, hl, h0, t, ht⟩
    · exact .inl hs
    · refine .inr ⟨l, alike_link' hke hl h0, h0, ?_⟩
      have h2 : List.Forall₂ DsAlike (k.filter fun o => decide (o.id = l ∧ product o = e.name)) (k'.filter fun o => decide (o.id = l ∧ product o = e.name)) :=
        forall₂_filter_rel hk fun a b hab => by rw [hab.1.id, alike_product hab]
      rw [ht] at h2
      rcases h3 : k'.filter fun o => decide (o.id = l ∧ product o = e.name) with _ | ⟨t', u⟩ <;> rw [h3] at h2
      · cases h2
      · obtain ⟨-, hu⟩ := List.forall₂_cons.mp h2
        cases hu
        exact ⟨t', h3⟩

theorem alike_kept {l l' : List Dataset} (h : List.Forall₂ DsAlike l l') : List.Forall₂ DsAlike (kept l) (kept l') :=
  forall₂_filter_rel h fun a b hab => by rw [hab.1.type, hab.1.location, hab.1.name]

end

end Progress
end Ocelot
