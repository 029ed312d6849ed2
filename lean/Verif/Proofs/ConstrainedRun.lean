import Verif.Proofs.SupplierVolumes
import Verif.Props.OrderConsequential

/-! # Constrained markets in a run of the consequential model -/

namespace Ocelot
open Spec

namespace Progress

/-! ## The constrained exchanges as the functions before `handle_constrained_markets` leave them -/

theorem bared_conditional (e : Exchange) : (bared e).conditional = e.conditional := by rw [bared_frame]

theorem bared_link_or (e : Exchange) : (bared e).activityLink = none ∨ (bared e).activityLink = e.activityLink := by
  unfold bared dropLink dropZeroLink
  split <;> split <;> simp

theorem bared_link_same {e : Exchange} (hc : e.conditional = some true) (ha : e.amount ≠ 0) : (bared e).activityLink = e.activityLink := by
  have : dropZeroLink e = e := by unfold dropZeroLink; rw [if_neg (fun h => ha h.1)]
  unfold bared dropLink
  rw [this, if_neg (fun h => h.1 hc)]

theorem flatMap_rel {α β γ δ : Type} {R : α → β → Prop} {Q : γ → δ → Prop} {f : α → List γ} {g : β → List δ} {l : List α} {l' : List β}
    (h : List.Forall₂ R l l') (hfg : ∀ a b, R a b → List.Forall₂ Q (f a) (g b)) : List.Forall₂ Q (l.flatMap f) (l'.flatMap g) := by
  induction h with
  | nil => exact .nil
  | cons hab _ ih => rw [List.flatMap_cons, List.flatMap_cons]; exact List.rel_append (hfg _ _ hab) ih

theorem toId_conds (i : String) (data : List Dataset) : toId i (condsOf data) = condsTo i data := by
  unfold toId condsOf condsTo
  rw [List.filter_flatMap]
  refine List.flatMap_congr fun d _ => ?_
  rw [List.filter_filter]
  refine List.filter_congr fun e _ => ?_
  rw [Bool.eq_iff_iff]
  simp [and_comm]

theorem condsTo_shown {i : String} {data l : List Dataset} (h : List.Forall₂ Shown data l) (ha : ∀ e ∈ condsTo i data, e.amount ≠ 0) :
    List.Forall₂ (fun e e' : Exchange => e'.name = e.name) (condsTo i data) (condsTo i (l.map baredDs)) := by
  unfold condsTo
  rw [List.flatMap_map]
  refine flatMap_rel (forall₂_with_mem h) ?_
  rintro d d' ⟨hd, -, hs⟩
  have ha' : ∀ e ∈ d.exchanges, e.conditional = some true → e.activityLink = some i → e.amount ≠ 0 := fun e he h1 h2 =>
    ha e (List.mem_flatMap.mpr ⟨d, hd, List.mem_filter.mpr ⟨he, by simp [h1, h2]⟩⟩)
  have hpre : (d.exchanges.filter fun e => decide (e.conditional = some true ∧ e.activityLink = some i)) =
      (d.exchanges.filter (present d)).filter fun e => decide (e.conditional = some true ∧ e.activityLink = some i) := by
    rw [List.filter_filter]
    refine List.filter_congr fun e he => ?_
    rw [Bool.eq_iff_iff, Bool.and_eq_true, decide_eq_true_eq]
    refine ⟨fun h => ⟨h, ?_⟩, fun h => h.1⟩
    have := ha' e he h.1 h.2
    unfold present
    simp [this]
  rw [hpre]
  unfold baredDs
  dsimp only
  rw [List.filter_map, List.forall₂_map_right_iff]
  refine (forall₂_filter_rel (forall₂_with_mem hs) ?_).imp ?_
  · rintro a b ⟨ham, hk, -⟩
    have ham := (List.mem_filter.mp ham).1
    rw [Function.comp_apply, Bool.eq_iff_iff, decide_eq_true_eq, decide_eq_true_eq, bared_conditional, hk.conditional]
    constructor
    · rintro ⟨h1, h2⟩
      refine ⟨h1, ?_⟩
      rw [bared_link_same (by rw [hk.conditional]; exact h1) (by rw [hk.amount]; exact ha' a ham h1 h2), hk.link]
      exact h2
    · rintro ⟨h1, h2⟩
      refine ⟨h1, ?_⟩
      rcases bared_link_or b with h | h <;> rw [h] at h2
      · cases h2
      · rw [← hk.link]; exact h2
  · rintro a b ⟨-, hk, -⟩
    rw [bared_frame]
    exact hk.name

theorem ownTargets_shown {data l : List Dataset} (h : List.Forall₂ Shown data l) (ho : OwnTargets data) : OwnTargetsById (l.map baredDs) := by
  have back : ∀ d' ∈ l.map baredDs, ∃ d ∈ data, d'.id = d.id ∧ ∀ e' ∈ d'.exchanges, ∃ e ∈ d.exchanges, e'.conditional = e.conditional ∧
      ∀ i, e'.activityLink = some i → e.activityLink = some i := by
    intro d' hd'
    obtain ⟨d1, hd1, rfl⟩ := List.mem_map.mp hd'
    obtain ⟨d, hd, hs⟩ := forall₂_mem_right h hd1
    refine ⟨d, hd, hs.1.id, fun e' he' => ?_⟩
    obtain ⟨e1, he1, rfl⟩ := List.mem_map.mp he'
    obtain ⟨e, he, hk⟩ := forall₂_mem_right hs.2 he1
    refine ⟨e, (List.mem_filter.mp he).1, by rw [bared_conditional, hk.1.conditional], fun i hi => ?_⟩
    rcases bared_link_or e1 with h0 | h0 <;> rw [h0] at hi
    · cases hi
    · rw [← hk.1.link]; exact hi
  intro d hd e he d' hd' e' he' hc hc' i hi
  obtain ⟨d0, hd0, hid, hx⟩ := back d hd
  obtain ⟨e0, he0, hcd, hl⟩ := hx e he
  obtain ⟨d0', hd0', hid', hx'⟩ := back d' hd'
  obtain ⟨e0', he0', hcd', hl'⟩ := hx' e' he'
  obtain ⟨h1, h2⟩ := ho d0 hd0 e0 he0 d0' hd0' e0' he0' (hcd.symm.trans hc) (hcd'.symm.trans hc')
  have h3 := hl i hi
  refine ⟨fun h => h1 (by rw [h3, ← h, hid']), fun h => ?_⟩
  rw [hid, hid', h2 (h3.trans (hl' i h).symm)]

/-! ## What is left of each dataset -/

/-- What handling constrained markets does not change. -/
structure Recast (d d' : Dataset) : Prop where
  name : d'.name = d.name
  type : d'.type = d.type
  location : d'.location = d.location
  id : d'.id = d.id
  level : d'.technologyLevel = d.technologyLevel
  suppliers : d'.suppliers = d.suppliers
  names : d'.exchanges.map (·.name) = d.exchanges.map (·.name)

theorem Recast.refl (d : Dataset) : Recast d d := ⟨rfl, rfl, rfl, rfl, rfl, rfl, rfl⟩

theorem Recast.trans {a b c : Dataset} (h : Recast a b) (h' : Recast b c) : Recast a c :=
  ⟨h'.name.trans h.name, h'.type.trans h.type, h'.location.trans h.location, h'.id.trans h.id, h'.level.trans h.level, h'.suppliers.trans h.suppliers, h'.names.trans h.names⟩

theorem swapOne_name (n : String) (e : Exchange) : (swapOne n e).name = e.name := by
  unfold swapOne
  dsimp only
  split <;> split <;> rfl

theorem flipOwn_recast (d : Dataset) : Recast d (flipOwn d) := by
  refine ⟨rfl, rfl, rfl, rfl, rfl, rfl, ?_⟩
  unfold flipOwn
  dsimp only
  rw [List.map_map]
  refine List.map_congr_left fun e _ => ?_
  rw [Function.comp_apply]
  split <;> rfl

theorem targets_recast : ∀ (L : List Exchange) (S out : List Dataset), foldE targetStep S L = .ok out → List.Forall₂ Recast S out
  | [], S, out, h => by cases h; exact List.forall₂_same.mpr fun d _ => .refl d
  | e :: L, S, out, h => by
    obtain ⟨t, h1, h2⟩ := bind_eq_ok.mp h
    refine forall₂_trans' ?_ (targets_recast L t out h2) fun _ _ _ => Recast.trans
    unfold targetStep at h1
    obtain ⟨link, -, h1⟩ := bind_eq_ok.mp h1
    obtain ⟨l₁, d, d', l₂, rfl, -, hx, rfl⟩ := modifyLast_split h1
    refine List.rel_append (List.forall₂_same.mpr fun d _ => .refl d) (.cons ?_ (List.forall₂_same.mpr fun d _ => .refl d))
    rw [(swapRoles_ok hx).1]
    refine ⟨rfl, rfl, rfl, rfl, rfl, rfl, ?_⟩
    dsimp only
    rw [List.map_map]
    exact List.map_congr_left fun e _ => swapOne_name _ _

theorem handle_recast {data out : List Dataset} (ho : OwnTargetsById data) (h : handleConstrainedMarkets data = .ok out) : List.Forall₂ Recast data out := by
  rw [handle_eq ho] at h
  have := targets_recast _ _ _ h
  rw [List.forall₂_map_left_iff] at this
  exact this.imp fun d d' hd => (flipOwn_recast d).trans hd

theorem byId_single {l : List Dataset} (hn : (l.map (·.id)).Nodup) {d : Dataset} (hd : d ∈ l) : byId d.id l = [d] := by
  unfold byId
  induction l with
  | nil => cases hd
  | cons x l ih =>
    rw [List.map_cons, List.nodup_cons] at hn
    rw [List.filter_cons]
    rcases List.mem_cons.mp hd with rfl | hd
    · rw [if_pos (by simp)]
      congr 1
      refine List.filter_eq_nil_iff.mpr fun y hy hyi => hn.1 (List.mem_map.mpr ⟨y, hy, by simpa using hyi⟩)
    · rw [if_neg, ih hn.2 hd]
      intro hx
      exact hn.1 (List.mem_map.mpr ⟨d, hd, by simpa using (of_decide_eq_true hx).symm⟩)

theorem flipOwn_ids (data : List Dataset) : (data.map flipOwn).map (·.id) = data.map (·.id) := by
  rw [List.map_map]; rfl

/-- A dataset that no constrained exchange leads to: only its own constrained exchanges are changed. -/
theorem handle_other {data out : List Dataset} (hn : (data.map (·.id)).Nodup) (ho : OwnTargetsById data) (h : handleConstrainedMarkets data = .ok out) {d : Dataset}
    (hd : d ∈ data) (hno : condsTo d.id data = []) : flipOwn d ∈ out := by
  rw [handle_eq ho] at h
  have := (targets_forward _ _ _ h).2 d.id
  have hid : (flipOwn d).id = d.id := rfl
  rw [toId_conds, hno, ← hid, byId_single (by rw [flipOwn_ids]; exact hn) (List.mem_map.mpr ⟨d, hd, rfl⟩)] at this
  have : flipOwn d ∈ byId (flipOwn d).id out := by rw [← Except.ok.inj this]; simp
  exact (List.mem_filter.mp this).1

/-- The target of one constrained exchange. -/
theorem handle_target {data out : List Dataset} (hn : (data.map (·.id)).Nodup) (ho : OwnTargetsById data) (h : handleConstrainedMarkets data = .ok out) {t : Dataset} {c : Exchange}
    (ht : t ∈ data) (hc : condsTo t.id data = [c]) : swapRoles c.name t = .ok { t with exchanges := t.exchanges.map (swapOne c.name) } ∧
      { t with exchanges := t.exchanges.map (swapOne c.name) } ∈ out := by
  rw [handle_eq ho] at h
  have hf := (targets_forward _ _ _ h).2 t.id
  have hid : (flipOwn t).id = t.id := rfl
  have hcm : c ∈ condsTo t.id data := by rw [hc]; simp
  obtain ⟨d, hd, hcm⟩ := List.mem_flatMap.mp hcm
  obtain ⟨hce, hcc⟩ := List.mem_filter.mp hcm
  rw [decide_eq_true_eq] at hcc
  have hsame : flipOwn t = t := by
    unfold flipOwn
    have : (t.exchanges.map fun e => if e.conditional = some true then toInput e else e) = t.exchanges := by
      conv_rhs => rw [← List.map_id t.exchanges]
      refine List.map_congr_left fun e he => ?_
      rw [if_neg fun hce' => (ho d hd c hce t ht e he hcc.1 hce' t.id hcc.2).1 rfl]
      rfl
    rw [this]
  rw [toId_conds, hc, ← hid, byId_single (by rw [flipOwn_ids]; exact hn) (List.mem_map.mpr ⟨t, ht, rfl⟩), hsame] at hf
  obtain ⟨s, hs, hf⟩ := bind_eq_ok.mp hf
  cases hf
  unfold targetStep at hs
  rw [hcc.2] at hs
  change modifyLast t.id (swapRoles c.name) [t] = _ at hs
  obtain ⟨l₁, d1, d2, l₂, h1, -, hx, h2⟩ := modifyLast_split hs
  have hl : l₁ = [] ∧ d1 = t ∧ l₂ = [] := by
    rcases l₁ with _ | ⟨a, l₁⟩
    · simp at h1; exact ⟨rfl, h1.1.symm, h1.2⟩
    · simp at h1
  obtain ⟨rfl, rfl, rfl⟩ := hl
  obtain ⟨rfl, -⟩ := swapRoles_ok hx
  refine ⟨hx, ?_⟩
  have : { d1 with exchanges := d1.exchanges.map (swapOne c.name) } ∈ byId d1.id out := by rw [h2]; simp
  exact (List.mem_filter.mp this).1

/-- The product of a target that had it as an input without volume has no volume. -/
theorem target_product {t t' : Dataset} {n : String} (h : swapRoles n t = .ok t') (hpv : ∀ e ∈ t.exchanges, e.name = n → e.pv = none) :
    ∃ x, refs t' = [x] ∧ x.name = n ∧ x.pv = none := by
  obtain ⟨rfl, -, hlen, hty⟩ := swapRoles_ok h
  have hf : (t.exchanges.filter fun e => decide (e.name = n)).map (swapOne n) = refs { t with exchanges := t.exchanges.map (swapOne n) } := by
    unfold refs
    dsimp only
    rw [List.filter_map]
    congr 1
    refine List.filter_congr fun e he => ?_
    rw [Function.comp_apply, Bool.eq_iff_iff, beq_iff_eq, decide_eq_true_eq]
    exact ((swapOne_same (hty e he)).2.2.2.2).symm
  obtain ⟨y, hy⟩ := List.length_eq_one_iff.mp hlen
  have hym : y ∈ t.exchanges.filter fun e => decide (e.name = n) := by rw [hy]; simp
  obtain ⟨hye, hyn⟩ := List.mem_filter.mp hym
  rw [decide_eq_true_eq] at hyn
  rw [hy] at hf
  refine ⟨swapOne n y, hf.symm, (swapOne_name n y).trans hyn, ?_⟩
  have hp := hpv y hye hyn
  unfold swapOne
  dsimp only
  have h1 : (if y.type = .referenceProduct then toInput y else y).pv = y.pv := by split <;> rfl
  generalize (if y.type = .referenceProduct then toInput y else y) = z at h1 ⊢
  split <;> exact h1.trans hp

/-- The reference products of a dataset whose only product is not constrained. -/
theorem flipOwn_refs {d : Dataset} {r : Exchange} (h : refs d = [r]) (hc : r.conditional ≠ some true) : refs (flipOwn d) = [r] := by
  have key : ∀ e ∈ d.exchanges, e.type = .referenceProduct → e.conditional ≠ some true := by
    intro e he ht
    have : e ∈ refs d := List.mem_filter.mpr ⟨he, by rw [ht]; rfl⟩
    rw [h, List.mem_singleton] at this
    rw [this]; exact hc
  unfold refs flipOwn at *
  dsimp only
  rw [List.filter_map]
  have h1 : d.exchanges.filter ((fun e : Exchange => e.type == .referenceProduct) ∘ fun e => if e.conditional = some true then toInput e else e) = [r] := by
    rw [← h]
    refine List.filter_congr fun e he => ?_
    rw [Function.comp_apply]
    by_cases hce : e.conditional = some true
    · rw [if_pos hce, Bool.eq_iff_iff, beq_iff_eq, beq_iff_eq]
      constructor
      · intro h0; exact absurd h0 (by simp [toInput, flipSign])
      · intro h0; exact absurd hce (key e he h0)
    · rw [if_neg hce]
  rw [h1]
  simp [hc]

/-- A target that a market can choose has no production volume: the linking functions fail. -/
theorem constrained_run {P : PipelineEnv} (hT : WellFormed P.T) (hne : NoEmptyPlaces P.T) (hσ : IterationOrder P.σ) {data : List Dataset} (hl : Legible P data)
    (ho : OwnTargets data) {t m : Dataset} {c : Exchange} {lv : String} {fm fs : Finset ℕ}
    (ht : t ∈ data) (htt : t.type = .transforming) (hc : condsTo t.id data = [c]) (hca : c.amount ≠ 0) (hpv : ∀ e ∈ t.exchanges, e.name = c.name → e.pv = none)
    (hlv : t.technologyLevel = some lv) (hlo : lv ∈ technologyOrder)
    (hbest : ∀ d ∈ data, d.type = .transforming → (∃ e ∈ d.exchanges, e.name = c.name) → ∃ l, d.technologyLevel = some l ∧ ¬ BetterLevel l lv)
    (hm : m ∈ data) (hmt : m.type = .market) (hmp : ∀ r ∈ refs m, r.name = c.name ∧ r.conditional ≠ some true) (hmc : condsTo m.id data = [])
    (hms : m.suppliers = none) (hmk : ¬ (m.location = "GLO" ∧ m.name ∈ canDeleteMarkets))
    (hone : m.location ≠ "GLO" ∨ (data.filter fun o => decide (o.name = m.name)) = [m])
    (hfm : HasFaces P.T m.location fm) (hfs : HasFaces P.T t.location fs) (hsub : fs ⊆ fm) (out : List Item) : runConfig P consequentialConfig data ≠ .ok out := by
  intro hrun
  have hsteps : unwrapAll consequentialConfig = readSteps ++ ([.dropZeroAmountActivityLinks, .splitCombinedProduction, .deleteLinksToConstrained,
      .handleConstrainedMarkets, .ensureAlternativeProduction] ++ (levelSteps ++ consequentialAfter)) := by decide +kernel
  rw [runConfig_eq, hsteps] at hrun
  change runSteps P _ data = _ at hrun
  obtain ⟨l, hrl, hs⟩ := read_total hl ([.dropZeroAmountActivityLinks, .splitCombinedProduction, .deleteLinksToConstrained,
      .handleConstrainedMarkets, .ensureAlternativeProduction] ++ (levelSteps ++ consequentialAfter))
  rw [hrl] at hrun
  have hp : ∀ d ∈ l, Tidy d := fun d hd => by
    obtain ⟨d0, hd0, h⟩ := forall₂_mem_right hs hd
    exact (tidy_present (hl.tidy hd0)).of_kin (h.2.imp fun _ _ h => h.1)
  have hrefs : ∀ d ∈ l, (refs d).length = 1 := fun d hd => by
    obtain ⟨r, hrr, -⟩ := (hp d hd).ref
    rw [hrr]; rfl
  simp only [List.cons_append, List.nil_append] at hrun
  obtain ⟨l1, h1, hrun⟩ := step_off (f := fun d => .ok (dropZeroAmountActivityLinks d)) rfl hrun
  cases h1
  obtain ⟨l2, h2, hrun⟩ := step_off (f := wrapFiltered (fun d => .ok (multiRp d)) (combinedProduction P.M P.F P.ord)) rfl hrun
  rw [split_idle hrefs] at h2
  cases h2
  obtain ⟨l3, h3, hrun⟩ := step_off (f := deleteLinksToConstrained) rfl hrun
  have h3' : l3 = l.map baredDs := by
    unfold deleteLinksToConstrained at h3
    obtain ⟨_, -, h3⟩ := bind_eq_ok.mp h3
    cases h3
    unfold dropZeroAmountActivityLinks
    rw [List.map_map]
    refine List.map_congr_left fun d _ => ?_
    simp only [Function.comp_apply, List.map_map]
    rfl
  subst h3'
  obtain ⟨l4, h4, hrun⟩ := step_off (f := handleConstrainedMarkets) rfl hrun
  obtain ⟨l5, h5, hlast⟩ := step_off (f := ensureAlternativeProduction) rfl hrun
  have h5' : l5 = l4 := by
    unfold ensureAlternativeProduction at h5
    split at h5
    · exact (Except.ok.inj h5).symm
    · cases h5
  subst h5'
  have hot := ownTargets_shown hs ho
  have hids : ((l.map baredDs).map (·.id)).Nodup := by
    have : (l.map baredDs).map (·.id) = data.map (·.id) := by
      rw [List.map_map]
      exact (forall₂_map_eq' hs fun a b hab => hab.1.id.symm).symm
    rw [this]; exact hl.ids
  -- the target
  obtain ⟨t1, ht1, hst⟩ := forall₂_mem_left hs ht
  have hct : ∃ c', condsTo (baredDs t1).id (l.map baredDs) = [c'] ∧ c'.name = c.name := by
    have hid : (baredDs t1).id = t.id := hst.1.id
    rw [hid]
    have := condsTo_shown (i := t.id) hs (by rw [hc]; intro e he; rw [List.mem_singleton.mp he]; exact hca)
    rw [hc] at this
    obtain ⟨c', l', h1, h2, h3⟩ := List.forall₂_cons_left_iff.mp this
    rw [List.forall₂_nil_left_iff.mp h2] at h3
    exact ⟨c', h3, h1⟩
  obtain ⟨c', hct, hcn⟩ := hct
  obtain ⟨hsw, hto⟩ := handle_target hids hot h4 (List.mem_map.mpr ⟨t1, ht1, rfl⟩) hct
  rw [hcn] at hsw hto
  obtain ⟨x, hx, hxn, hxp⟩ := target_product hsw (by
    intro e' he' hn
    obtain ⟨e1, he1, rfl⟩ := List.mem_map.mp he'
    obtain ⟨e, he, hk⟩ := forall₂_mem_right hst.2 he1
    rw [bared_frame] at hn ⊢
    have := hpv e (List.mem_filter.mp he).1 (by rw [← hk.1.name]; exact hn)
    have hv := hk.1.vol
    rw [this] at hv
    simpa using hv)
  -- the market
  obtain ⟨m1, hm1, hsm⟩ := forall₂_mem_left hs hm
  have hmo : flipOwn (baredDs m1) ∈ l5 := by
    refine handle_other hids hot h4 (List.mem_map.mpr ⟨m1, hm1, rfl⟩) ?_
    have hid : (baredDs m1).id = m.id := hsm.1.id
    rw [hid]
    have := condsTo_shown (i := m.id) hs (by rw [hmc]; simp)
    rw [hmc] at this
    exact List.forall₂_nil_left_iff.mp this
  obtain ⟨r, hr, -, hra⟩ := (hl.tidy hm).ref
  obtain ⟨hrn, hrc⟩ := hmp r (by rw [hr]; simp)
  have hmr : ∃ r', refs (baredDs m1) = [r'] ∧ r'.name = c.name ∧ r'.conditional ≠ some true := by
    have hk := kin_refs (hsm.2.imp fun _ _ h => h.1)
    have he : ((m.exchanges.filter (present m)).filter fun e => e.type == .referenceProduct) = [r] := by
      rw [List.filter_filter, ← hr]
      unfold refs
      refine List.filter_congr fun e he => ?_
      rw [Bool.eq_iff_iff, Bool.and_eq_true]
      refine ⟨fun h => h.1, fun h => ⟨h, ?_⟩⟩
      have : e ∈ refs m := List.mem_filter.mpr ⟨he, h⟩
      rw [hr, List.mem_singleton] at this
      unfold present
      simp [this, hra]
    rw [he] at hk
    obtain ⟨r1, l', k1, k2, k3⟩ := List.forall₂_cons_left_iff.mp hk
    rw [List.forall₂_nil_left_iff.mp k2] at k3
    refine ⟨bared r1, refs_map_one (fun e => by rw [bared_frame]) k3, ?_, ?_⟩
    · rw [bared_frame]; exact k1.name.trans hrn
    · rw [bared_conditional, k1.conditional]; exact hrc
  obtain ⟨r', hr', hrn', hrc'⟩ := hmr
  have hmf := flipOwn_refs hr' hrc'
  have hrec := handle_recast hot h4
  refine absurd (volumes_needed hT hne hσ hlast hmo (hsm.1.type.trans hmt) (hsm.1.suppliers.trans hms) ?_ ?_ hto (hst.1.type.trans htt) hx ?_
    (hst.1.technologyLevel.trans hlv) hlo ?_ (fm := fm) (fs := fs) ?_ ?_ hsub) (by rw [hxp]; simp)
  · have e1 : (flipOwn (baredDs m1)).location = m.location := hsm.1.location
    have e2 : (flipOwn (baredDs m1)).name = m.name := hsm.1.name
    rw [e1, e2]; exact hmk
  · refine hone.imp (fun h0 => ?_) fun h0 => ?_
    · have e1 : (flipOwn (baredDs m1)).location = m.location := hsm.1.location
      rw [e1]; exact h0
    · have e2 : (flipOwn (baredDs m1)).name = m.name := hsm.1.name
      rw [e2]
      have hnames : l5.map (·.name) = data.map (·.name) := by
        rw [names_of hrec fun _ _ hab => hab.name, List.map_map]
        exact (forall₂_map_eq' hs fun a b hab => hab.1.name.symm).symm
      have hlen : (l5.filter fun o => decide (o.name = m.name)).length = 1 := by
        have key : ∀ k : List Dataset, (k.filter fun o => decide (o.name = m.name)).length = ((k.map (·.name)).filter fun n => decide (n = m.name)).length := by
          intro k
          rw [List.filter_map, List.length_map]
          rfl
        rw [key, hnames, ← key, h0]; rfl
      obtain ⟨y, hy⟩ := List.length_eq_one_iff.mp hlen
      have hmem : flipOwn (baredDs m1) ∈ l5.filter fun o => decide (o.name = m.name) := List.mem_filter.mpr ⟨hmo, by rw [e2]; simp⟩
      rw [hy, List.mem_singleton] at hmem
      rw [hy, hmem]
  · unfold product
    rw [hmf, hxn]
    exact hrn'
  · intro d' hd' htr e hed hen
    obtain ⟨d2, hd2, k⟩ := forall₂_mem_right hrec hd'
    obtain ⟨d1, hd1, rfl⟩ := List.mem_map.mp hd2
    obtain ⟨d, hd, hsd⟩ := forall₂_mem_right hs hd1
    have hmem : e.name ∈ d'.exchanges.map (·.name) := by
      have : e ∈ refs d' := by rw [hed]; simp
      exact List.mem_map.mpr ⟨e, (List.mem_filter.mp this).1, rfl⟩
    rw [k.names] at hmem
    obtain ⟨e2, he2, hn2⟩ := List.mem_map.mp hmem
    obtain ⟨e1, he1, rfl⟩ := List.mem_map.mp he2
    obtain ⟨e0, he0, hk⟩ := forall₂_mem_right hsd.2 he1
    obtain ⟨v, hv, hb⟩ := hbest d hd (hsd.1.type.symm.trans (k.type.symm.trans htr)) ⟨e0, (List.mem_filter.mp he0).1, by
      rw [bared_frame] at hn2
      rw [← hk.1.name]
      exact hn2.trans (hen.trans hxn)⟩
    exact ⟨v, k.level.trans (hsd.1.technologyLevel.trans hv), hb⟩
  · have e1 : (flipOwn (baredDs m1)).location = m.location := hsm.1.location
    rw [e1]; exact hfm
  · have e1 : (baredDs t1).location = t.location := hst.1.location
    change HasFaces P.T (baredDs t1).location fs
    rw [e1]; exact hfs

end Progress
end Ocelot
