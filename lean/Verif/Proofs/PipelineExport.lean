import Verif.Props.Inventory

/-! Links of reference products in the consequential model. -/

namespace Ocelot
open Spec

/-- The reference products of `d'` are those of `d`; they get a link only if they have an activity link. -/
def RpFrom (d d' : Dataset) : Prop :=
  ∀ e' ∈ d'.exchanges, e'.type = .referenceProduct → ∃ e ∈ d.exchanges, e.type = .referenceProduct ∧ e'.conditional = e.conditional ∧
    e'.activityLink = e.activityLink ∧ (e'.code = e.code ∨ e.activityLink.getD "" ≠ "")

theorem RpFrom.refl (d : Dataset) : RpFrom d d := fun e he ht => ⟨e, he, ht, rfl, rfl, Or.inl rfl⟩

theorem RpFrom.trans {a b c : Dataset} (h : RpFrom a b) (h' : RpFrom b c) : RpFrom a c := by
  intro e he ht
  obtain ⟨x, hx, h1, h2, h3, h4⟩ := h' e he ht
  obtain ⟨y, hy, k1, k2, k3, k4⟩ := h x hx h1
  refine ⟨y, hy, k1, h2.trans k2, h3.trans k3, ?_⟩
  rcases h4 with h4 | h4
  · rw [h4]; exact k4
  · exact Or.inr (k3 ▸ h4)

/-- The exchanges are the same ones, or new ones that are inputs. -/
theorem RpFrom.old {d d' : Dataset} (h : ∀ e' ∈ d'.exchanges, e'.type = .referenceProduct → e' ∈ d.exchanges) : RpFrom d d' :=
  fun e he ht => ⟨e, h e he ht, ht, rfl, rfl, Or.inl rfl⟩

def KeepsRp (f : List Dataset → Except Err (List Dataset)) : Prop := ∀ data out, f data = .ok out → ∀ d' ∈ out, ∃ d ∈ data, RpFrom d d'

theorem keepsRp_forall₂ {data out : List Dataset} (h : List.Forall₂ RpFrom data out) : ∀ d' ∈ out, ∃ d ∈ data, RpFrom d d' :=
  fun _ hd => forall₂_mem_right h hd

theorem keepsRp_mapE {g : Dataset → Except Err Dataset} (h : ∀ d d', g d = .ok d' → RpFrom d d') : KeepsRp (mapE g) :=
  fun _ _ ho => keepsRp_forall₂ ((mapE_ok_iff.mp ho).imp h)

theorem keepsRp_actualize : KeepsRp actualizeActivityLinks := by
  intro data out h
  refine keepsRp_forall₂ ((mapE_ok_iff.mp h).imp ?_)
  intro d d' hd
  unfold mapExchangesE at hd
  obtain ⟨ex, hex, hd⟩ := bind_eq_ok.mp hd
  cases hd
  intro e' he' ht
  obtain ⟨e, he, hfe⟩ := mapE_mem hex he'
  unfold actualizeLink at hfe
  split at hfe
  · cases hfe; exact ⟨e', he, ht, rfl, rfl, Or.inl rfl⟩
  · next hl =>
    simp only at hfe
    split at hfe
    · cases hfe
    · obtain ⟨refs, -, hfe⟩ := bind_eq_ok.mp hfe
      unfold linkToOnly at hfe
      split at hfe
      · obtain ⟨c, -, hfe⟩ := bind_eq_ok.mp hfe
        cases hfe
        exact ⟨e, he, ht, rfl, rfl, Or.inr hl⟩
      · cases hfe; exact ⟨e', he, ht, rfl, rfl, Or.inl rfl⟩

theorem keepsRp_addSuppliers (T : Topology) (σ : Dataset → String → List String → List String) (from_ to_ : DsType) :
    KeepsRp (addSuppliersToMarkets T σ from_ to_) := by
  intro data out h
  unfold addSuppliersToMarkets at h
  simp only at h
  obtain ⟨_, -, h⟩ := bind_eq_ok.mp h
  have h := groupLoop (by
    intro t d d' hu
    obtain ⟨-, h2, h3, -⟩ := apportionUpd_links (K := []) hu
    exact productIf_congr (by rw [h3]) h2) h
  refine keepsRp_forall₂ (h.imp ?_)
  intro d d' hd
  split at hd
  · subst hd; exact .refl _
  · obtain ⟨t, -, hu⟩ := hd
    unfold apportionUpd at hu
    split at hu
    · cases hu; exact .refl _
    · split at hu
      · unfold supplyConsumer at hu
        obtain ⟨new, -, hu⟩ := bind_eq_ok.mp hu
        cases hu
        exact .old fun e he _ => he
      · cases hu; exact .refl _

theorem keepsRp_prune : KeepsRp pruneByTechnologyLevel := by
  refine keepsRp_mapE fun d d' h => ?_
  unfold pruneSuppliers at h
  split at h
  · obtain ⟨best, hb, h⟩ := bind_eq_ok.mp h
    cases h
    exact .old fun e he _ => he
  · cases h; exact .refl _

theorem updateMarketVolume_rp {d d' : Dataset} (h : updateMarketVolume d = .ok d') : RpFrom d d' := by
  unfold updateMarketVolume at h
  obtain ⟨rp, -, h⟩ := bind_eq_ok.mp h
  obtain ⟨sup, -, h⟩ := bind_eq_ok.mp h
  obtain ⟨orig, -, h⟩ := bind_eq_ok.mp h
  obtain ⟨_, -, h⟩ := bind_eq_ok.mp h
  obtain ⟨vols, -, h⟩ := bind_eq_ok.mp h
  cases h
  intro e he ht
  simp only [List.mem_map] at he
  obtain ⟨a, ha, rfl⟩ := he
  refine ⟨a, ha, ?_⟩
  revert ht
  unfold mapRefVolume
  split <;> intro ht
  · exact ⟨ht, rfl, rfl, Or.inl rfl⟩
  · exact ⟨ht, rfl, rfl, Or.inl rfl⟩

theorem propagateTo_rp {members : List ℕ} {ds : Dataset} {v : ℚ} {p : Dataset × ℕ} {d' : Dataset}
    (h : propagateTo members ds v p = .ok d') : RpFrom p.1 d' := by
  unfold propagateTo at h
  split at h
  · obtain ⟨sup, hs, h⟩ := bind_eq_ok.mp h
    obtain ⟨sup', hs', h⟩ := bind_eq_ok.mp h
    cases h
    exact .old fun e he _ => he
  · cases h; exact .refl _

theorem keepsRp_updateVolumes (T : Topology) (kind : DsType) : KeepsRp (updateMarketProductionVolumes T kind) := by
  intro data out h
  apply keepsRp_forall₂
  unfold updateMarketProductionVolumes at h
  split at h
  · obtain ⟨order, -, h⟩ := bind_eq_ok.mp h
    refine foldE_inv (I := fun _ st => List.Forall₂ RpFrom data st) h (List.forall₂_same.mpr fun d _ => .refl d) ?_
    intro pre i st st' _ hI hs
    refine forall₂_trans' (S := RpFrom) hI ?_ fun a b c hab hbc => hab.trans hbc
    unfold updateGroupStep at hs
    split at hs
    · cases hs; exact List.forall₂_same.mpr fun d _ => .refl d
    · next ds hds =>
      obtain ⟨ds', hds', hs⟩ := bind_eq_ok.mp hs
      refine forall₂_trans' (forall₂_set (R := RpFrom) RpFrom.refl hds (updateMarketVolume_rp hds')) (S := RpFrom) ?_ fun a b c hab hbc => hab.trans hbc
      have h2 : List.Forall₂ (fun (p : Dataset × ℕ) d' => RpFrom p.1 d') (st.set i ds').zipIdx st' :=
        (mapE_ok_iff.mp hs).imp fun p d' hp => propagateTo_rp hp
      have h3 := List.forall₂_map_left_iff (f := Prod.fst) (R := RpFrom) (l := (st.set i ds').zipIdx) (u := st')
      rw [List.zipIdx_map_fst] at h3
      exact h3.mpr h2
  · refine (mapE_ok_iff.mp h).imp ?_
    intro d d' hd
    split at hd
    · exact updateMarketVolume_rp hd
    · cases hd; exact .refl _

theorem keepsRp_allocateAll (kind : DsType) : KeepsRp (allocateAllMarketSuppliers kind) := by
  refine keepsRp_mapE fun d d' h => ?_
  split at h
  · unfold allocateSuppliers at h
    obtain ⟨exc, -, h⟩ := bind_eq_ok.mp h
    obtain ⟨sup, hsup, h⟩ := bind_eq_ok.mp h
    obtain ⟨vols, -, h⟩ := bind_eq_ok.mp h
    have hnew : ∀ {t : ℚ} {l new : List Exchange}, flatMapE (marketInput exc.amount t) l = .ok new → ∀ e ∈ new, e.type = .fromTechnosphere := by
      intro t l new hn e he
      obtain ⟨s, -, r, hr, her⟩ := flatMapE_mem hn he
      unfold marketInput at hr
      obtain ⟨p, -, hr⟩ := bind_eq_ok.mp hr
      simp only at hr
      split at hr
      · cases hr; cases her
      · obtain ⟨c, hc, hr⟩ := bind_eq_ok.mp hr
        obtain ⟨_, -, hr⟩ := bind_eq_ok.mp hr
        cases hr
        simp only [List.mem_singleton] at her
        subst her
        rfl
    split at h
    · split at h
      · cases h; exact .refl _
      · obtain ⟨_, -, h⟩ := bind_eq_ok.mp h
        obtain ⟨_, -, h⟩ := bind_eq_ok.mp h
        simp only at h
        obtain ⟨new, hn, h⟩ := bind_eq_ok.mp h
        cases h
        refine .old fun e he ht => ?_
        rcases List.mem_append.mp he with he | he
        · exact he
        · rw [hnew hn e he] at ht; cases ht
    · obtain ⟨new, hn, h⟩ := bind_eq_ok.mp h
      cases h
      refine .old fun e he ht => ?_
      rcases List.mem_append.mp he with he | he
      · exact he
      · rw [hnew hn e he] at ht; cases ht
  · cases h; exact .refl _

theorem linkConsumer_rp {M : MathEnv} {T : Topology} {data : List Dataset} {cand cand' : Option (List Dataset)} {d d' : Dataset}
    (h : linkConsumer M T data cand d = .ok (cand', d')) : RpFrom d d' := by
  unfold linkConsumer at h
  split at h
  · cases h; exact .refl _
  · obtain ⟨crow, -, h⟩ := bind_eq_ok.mp h
    obtain ⟨st, hst, h⟩ := bind_eq_ok.mp h
    cases h
    refine .old fun e he ht => ?_
    obtain ⟨p, hp, rfl⟩ := List.mem_map.mp he
    have key : ∀ p ∈ st.exchanges, p.2.type = .referenceProduct → ∃ i, p.1 = some i ∧ (p.2, i) ∈ d.exchanges.zipIdx := by
      refine foldE_inv (I := fun _ (s : LinkState) => ∀ p ∈ s.exchanges, p.2.type = .referenceProduct → ∃ i, p.1 = some i ∧ (p.2, i) ∈ d.exchanges.zipIdx) hst ?_ ?_
      · intro p hp _
        obtain ⟨q, hq, rfl⟩ := List.mem_map.mp hp
        exact ⟨q.2, rfl, hq⟩
      · intro pre x s s' hsplit hs hstep
        unfold linkInput at hstep
        obtain ⟨cs, -, hstep⟩ := bind_eq_ok.mp hstep
        obtain ⟨chosen, -, hstep⟩ := bind_eq_ok.mp hstep
        unfold useMarkets at hstep
        have hx : x ∈ d.exchanges.zipIdx ∧ x.1.type = .fromTechnosphere := by
          obtain ⟨h1, h2⟩ := List.mem_filter.mp hsplit
          simp only [isUnlinked, Bool.and_eq_true, beq_iff_eq] at h2
          exact ⟨h1, h2.1⟩
        split at hstep
        · cases hstep; exact hs
        · obtain ⟨c, -, hstep⟩ := bind_eq_ok.mp hstep
          cases hstep
          intro p hp hpt
          obtain ⟨q, hq, rfl⟩ := List.mem_map.mp hp
          unfold setCodeAt at hpt ⊢
          split at hpt
          · next hqi =>
            obtain ⟨i, h1, h2⟩ := hs q hq hpt
            rw [hqi, Option.some.injEq] at h1
            subst h1
            have e1 := List.mem_zipIdx' h2
            have e2 := List.mem_zipIdx' hx.1
            rw [e1.2, ← e2.2, hx.2] at hpt
            cases hpt
          · next hqi =>
            rw [if_neg hqi]
            exact hs q hq hpt
        · obtain ⟨ex, hex, hstep⟩ := bind_eq_ok.mp hstep
          cases hstep
          intro p hp hpt
          unfold splitInput at hex
          obtain ⟨vols, -, hex⟩ := bind_eq_ok.mp hex
          split at hex
          · cases hex; exact hs p hp hpt
          · obtain ⟨new, hnew, hex⟩ := bind_eq_ok.mp hex
            cases hex
            rcases List.mem_append.mp (List.mem_filter.mp hp).1 with hp | hp
            · exact hs p hp hpt
            · obtain ⟨n, hn, rfl⟩ := List.mem_map.mp hp
              obtain ⟨s, -, r, hr, hnr⟩ := flatMapE_mem hnew hn
              unfold inputShare at hr
              obtain ⟨p, -, hr⟩ := bind_eq_ok.mp hr
              simp only at hr
              split at hr
              · cases hr; cases hnr
              · obtain ⟨_, -, hr⟩ := bind_eq_ok.mp hr
                obtain ⟨_, -, hr⟩ := bind_eq_ok.mp hr
                obtain ⟨_, -, hr⟩ := bind_eq_ok.mp hr
                cases hr
                simp only [List.mem_singleton] at hnr
                subst hnr
                cases hpt
    obtain ⟨i, -, hi⟩ := key p hp ht
    exact List.fst_mem_of_mem_zipIdx hi

theorem keepsRp_linkConsumers (M : MathEnv) (T : Topology) : KeepsRp (linkConsumersToMarkets M T) := by
  intro data out h
  unfold linkConsumersToMarkets at h
  obtain ⟨_, -, h⟩ := bind_eq_ok.mp h
  apply keepsRp_forall₂
  have main : ∀ (l : List Dataset) (cand : Option (List Dataset)) (r : List Dataset), scanE (linkConsumer M T data) cand l = .ok r → List.Forall₂ RpFrom l r := by
    intro l
    induction l with
    | nil => intro cand r hs; cases hs; exact .nil
    | cons d l ih =>
      intro cand r hs
      unfold scanE at hs
      obtain ⟨p, hp, hs⟩ := bind_eq_ok.mp hs
      obtain ⟨r', hr, hs⟩ := bind_eq_ok.mp hs
      cases hs
      exact .cons (linkConsumer_rp hp) (ih p.1 r' hr)
  exact main data none out h

theorem keepsRp_logAndDelete : KeepsRp (fun d => .ok (logAndDeleteUnlinked d)) := by
  intro data out h d' hd'
  cases h
  obtain ⟨d, hd, rfl⟩ := List.mem_map.mp hd'
  exact ⟨d, hd, .old fun e he _ => (List.mem_filter.mp he).1⟩

theorem keepsRp_deleteSuppliers : KeepsRp (fun d => .ok (deleteSuppliersList d)) := by
  intro data out h d' hd'
  cases h
  obtain ⟨d, hd, rfl⟩ := List.mem_map.mp hd'
  exact ⟨d, hd, .old fun e he _ => he⟩

theorem keepsRp_normalize (M : MathEnv) : KeepsRp (wrapAll (normalizeList M)) := by
  have : wrapAll (normalizeList M) = mapE (normalize M) := funext (wrapNormalize_eq M)
  rw [this]
  refine keepsRp_mapE fun d d' h => ?_
  obtain ⟨rp, n, -, -, -, hd, hs, -⟩ := C10_normalize_result M d d' h
  intro e he ht
  obtain ⟨a, ha, hae⟩ := forall₂_mem_right hs he
  rw [hae] at ht ⊢
  exact ⟨a, ha, ht, rfl, rfl, Or.inl rfl⟩

theorem consequentialAfter_rp (P : PipelineEnv) {s : Step} (hs : s ∈ consequentialAfter) : ∃ f, s.run P = onDatasets f ∧ KeepsRp f := by
  simp only [consequentialAfter, List.mem_cons, List.not_mem_nil, or_false] at hs
  rcases hs with rfl | rfl | rfl | rfl | rfl | rfl | rfl | rfl | rfl | rfl | rfl
  · exact ⟨_, rfl, keepsRp_actualize⟩
  · exact ⟨_, rfl, keepsRp_addSuppliers _ _ _ _⟩
  · exact ⟨_, rfl, keepsRp_prune⟩
  · exact ⟨_, rfl, keepsRp_updateVolumes _ _⟩
  · exact ⟨_, rfl, keepsRp_addSuppliers _ _ _ _⟩
  · exact ⟨_, rfl, keepsRp_updateVolumes _ _⟩
  · exact ⟨_, rfl, keepsRp_allocateAll _⟩
  · exact ⟨_, rfl, keepsRp_deleteSuppliers⟩
  · exact ⟨_, rfl, keepsRp_linkConsumers _ _⟩
  · exact ⟨_, rfl, keepsRp_logAndDelete⟩
  · exact ⟨_, rfl, keepsRp_normalize _⟩

theorem foldE_rp (P : PipelineEnv) (steps : List Step) (hs : ∀ s ∈ steps, ∃ f, s.run P = onDatasets f ∧ KeepsRp f) (data : List Dataset) (out : List Item)
    (h : foldE (fun d (s : Step) => s.run P d) (data.map .ds) steps = .ok out) : ∃ r : List Dataset, out = r.map .ds ∧ ∀ d' ∈ r, ∃ d ∈ data, RpFrom d d' := by
  induction steps generalizing data with
  | nil => cases h; exact ⟨data, rfl, fun d hd => ⟨d, hd, .refl d⟩⟩
  | cons s l ih =>
    simp only [foldE] at h
    obtain ⟨mid, h1, h2⟩ := bind_eq_ok.mp h
    obtain ⟨f, hf, hk⟩ := hs s (by simp)
    rw [hf] at h1
    obtain ⟨m, hm, rfl⟩ := onDatasets_map.mp h1
    obtain ⟨r, hr, h3⟩ := ih (fun x hx => hs x (by simp [hx])) m h2
    refine ⟨r, hr, fun d' hd' => ?_⟩
    obtain ⟨x, hx, hxd⟩ := h3 d' hd'
    obtain ⟨d, hd, hdx⟩ := hk data m hm x hx
    exact ⟨d, hd, hdx.trans hxd⟩

/-! Activity links between `delete_activity_links_to_constrained_markets` and the codes. -/

/-- Only constrained exchanges keep an activity link. -/
def Free (e : Exchange) : Prop := e.conditional = some true ∨ e.activityLink.getD "" = ""

def AllFree (data : List Dataset) : Prop := ∀ d ∈ data, ∀ e ∈ d.exchanges, Free e

def KeepsFree (f : List Dataset → Except Err (List Dataset)) : Prop := ∀ data out, f data = .ok out → AllFree data → AllFree out

theorem free_deleteLinks {data out : List Dataset} (h : deleteLinksToConstrained data = .ok out) : AllFree out := by
  unfold deleteLinksToConstrained at h
  obtain ⟨_, -, h⟩ := bind_eq_ok.mp h
  cases h
  intro d hd e he
  obtain ⟨x, -, rfl⟩ := List.mem_map.mp hd
  obtain ⟨y, -, rfl⟩ := List.mem_map.mp he
  unfold dropLink
  split
  · exact Or.inr rfl
  · next hc =>
    unfold Free
    by_contra hcon
    push Not at hcon
    exact hc hcon

theorem keepsFree_mapE {g : Dataset → Except Err Dataset} (h : ∀ d d', g d = .ok d' → (∀ e ∈ d.exchanges, Free e) → ∀ e ∈ d'.exchanges, Free e) : KeepsFree (mapE g) := by
  intro data out ho hd d' hd'
  obtain ⟨d, hdd, hg⟩ := mapE_mem ho hd'
  exact h d d' hg (hd d hdd)

theorem free_swap {n : String} {d d' : Dataset} (h : swapRoles n d = .ok d') (hd : ∀ e ∈ d.exchanges, Free e) : ∀ e ∈ d'.exchanges, Free e := by
  unfold swapRoles at h
  obtain ⟨_, -, h⟩ := bind_eq_ok.mp h
  simp only at h
  split at h
  · split at h
    · cases h
      intro e he
      simp only [List.mem_map] at he
      obtain ⟨y, ⟨z, hz, rfl⟩, rfl⟩ := he
      have h1 : Free (if z.type = .referenceProduct then toInput z else z) := by
        split
        · exact hd z hz
        · exact hd z hz
      generalize (if z.type = .referenceProduct then toInput z else z) = y at h1
      split
      · exact h1
      · exact h1
    · cases h
  · cases h

theorem keepsFree_constrained : KeepsFree handleConstrainedMarkets := by
  intro data out h hd
  unfold handleConstrainedMarkets at h
  refine foldE_inv (I := fun _ s => AllFree s) h hd ?_
  intro pre p st st' _ hst hs
  unfold constrainedStep at hs
  obtain ⟨link, -, hs⟩ := bind_eq_ok.mp hs
  have h1 : AllFree (modifyExchange p.1 p.2.1 toInput st) := by
    intro d hd e he
    unfold modifyExchange at hd
    obtain ⟨j, hj⟩ := List.mem_iff_getElem?.mp hd
    rw [List.getElem?_modify] at hj
    rcases hx : st[j]? with _ | x
    · rw [hx] at hj; simp at hj
    · rw [hx] at hj
      have hxm := List.mem_of_getElem? hx
      simp only [Option.map_eq_map, Option.map_some, Option.some.injEq] at hj
      split at hj
      · subst hj
        obtain ⟨k, hk⟩ := List.mem_iff_getElem?.mp he
        rw [List.getElem?_modify] at hk
        rcases hy : x.exchanges[k]? with _ | y
        · rw [hy] at hk; simp at hk
        · rw [hy] at hk
          have hym := hst x hxm y (List.mem_of_getElem? hy)
          simp only [Option.map_eq_map, Option.map_some, Option.some.injEq] at hk
          split at hk
          · subst hk; exact hym
          · subst hk; exact hym
      · subst hj; exact hst _ hxm e he
  obtain ⟨l₁, d, x, l₂, hl, -, hx, rfl⟩ := modifyLast_split hs
  rw [hl] at h1
  intro y hy
  simp only [List.mem_append, List.mem_cons] at hy
  rcases hy with hy | rfl | hy
  · exact h1 y (by simp [hy])
  · exact free_swap hx (h1 d (by simp))
  · exact h1 y (by simp [hy])

theorem keepsFree_alternative : KeepsFree ensureAlternativeProduction := by
  intro data out h hd
  unfold ensureAlternativeProduction at h
  split at h
  · cases h; exact hd
  · cases h

theorem keepsFree_label : KeepsFree labelReferenceProduct := by
  refine keepsFree_mapE fun d d' h hd => ?_
  obtain ⟨e, -, h⟩ := bind_eq_ok.mp h
  cases h
  exact hd

theorem keepsFree_whitelist : KeepsFree deleteWhitelistedMarkets := by
  intro data out h hd
  unfold deleteWhitelistedMarkets at h
  obtain ⟨_, -, h⟩ := bind_eq_ok.mp h
  cases h
  exact fun d hdd => hd d (List.mem_filter.mp hdd).1

theorem keepsFree_fakePv : KeepsFree assignFakePvToConfidential := by
  refine keepsFree_mapE fun d d' h hd => ?_
  unfold assignFakePv at h
  split at h
  · obtain ⟨_, -, h⟩ := bind_eq_ok.mp h
    obtain ⟨_, -, h⟩ := bind_eq_ok.mp h
    cases h
    intro e he
    obtain ⟨x, hx, rfl⟩ := List.mem_map.mp he
    unfold mapRefVolume
    split
    · exact hd x hx
    · exact hd x hx
  · cases h; exact hd

theorem keepsFree_relabel : KeepsFree relabelGlobalToRow := by
  intro data out h hd d' hd'
  rw [C38_relabel data out h] at hd'
  obtain ⟨d, hdd, rfl⟩ := List.mem_map.mp hd'
  split
  · unfold asRow
    intro e he
    simp only [List.mem_map] at he
    obtain ⟨x, hx, rfl⟩ := he
    unfold restVolume
    split
    · exact hd d hdd x hx
    · exact hd d hdd x hx
  · exact hd d hdd

theorem keepsFree_codes (lower md5 : String → String) : KeepsFree (addUniqueCodes lower md5) := by
  have main : ∀ (hash : Dataset → String) (l : List Dataset) (seen : List String) (out : List Dataset), addCodesFrom hash seen l = .ok out → AllFree l → AllFree out := by
    intro hash l
    induction l with
    | nil => intro seen out h; cases h; simp
    | cons d l ih =>
      intro seen out h hd
      unfold addCodesFrom at h
      split at h
      · cases h
      · obtain ⟨r, hr, h⟩ := bind_eq_ok.mp h
        cases h
        intro d' hd'
        rcases List.mem_cons.mp hd' with rfl | hd'
        · exact hd d (by simp)
        · exact ih _ r hr (fun x hx => hd x (by simp [hx])) d' hd'
  exact fun data out h => main _ data [] out h

theorem foldE_free (P : PipelineEnv) (steps : List Step) (hs : ∀ s ∈ steps, ∃ f, s.run P = onDatasets f ∧ KeepsFree f) (data r : List Dataset)
    (h : foldE (fun d (s : Step) => s.run P d) (data.map .ds) steps = .ok (r.map .ds)) (hd : AllFree data) : AllFree r := by
  induction steps generalizing data with
  | nil =>
    simp only [foldE, Except.ok.injEq] at h
    have : data = r := List.map_injective_iff.mpr (fun x y hxy => by cases hxy; rfl) h
    exact this ▸ hd
  | cons s l ih =>
    simp only [foldE] at h
    obtain ⟨mid, h1, h2⟩ := bind_eq_ok.mp h
    obtain ⟨f, hf, hk⟩ := hs s (by simp)
    rw [hf] at h1
    obtain ⟨m, hm, rfl⟩ := onDatasets_map.mp h1
    exact ih (fun x hx => hs x (by simp [hx])) m h2 (hk data m hm hd)

/-- The coded datasets of the consequential model have activity links in constrained exchanges only. -/
theorem consequential_free (P : PipelineEnv) (data : List Item) (r : List Dataset)
    (h : foldE (fun d (s : Step) => s.run P d) data (consequentialBefore ++ [.addUniqueCodes]) = .ok (r.map .ds)) : AllFree r := by
  have hsplit : consequentialBefore ++ [.addUniqueCodes] = (consequentialBefore.takeWhile fun s => s != .deleteLinksToConstrained) ++
      .deleteLinksToConstrained :: [.handleConstrainedMarkets, .ensureAlternativeProduction, .labelReferenceProduct, .deleteWhitelistedMarkets, .assignFakePv, .relabelGlobalToRow, .addUniqueCodes] := by decide +kernel
  rw [hsplit] at h
  obtain ⟨mid, -, h⟩ := foldE_split.mp h
  simp only [foldE] at h
  obtain ⟨m, h1, h2⟩ := bind_eq_ok.mp h
  obtain ⟨l, o, rfl, ho, rfl⟩ := onDatasets_ok (f := deleteLinksToConstrained) h1
  refine foldE_free P [.handleConstrainedMarkets, .ensureAlternativeProduction, .labelReferenceProduct, .deleteWhitelistedMarkets, .assignFakePv, .relabelGlobalToRow, .addUniqueCodes] ?_ o r h2 (free_deleteLinks ho)
  intro s hs
  simp only [List.mem_cons, List.not_mem_nil, or_false] at hs
  rcases hs with rfl | rfl | rfl | rfl | rfl | rfl | rfl
  · exact ⟨_, rfl, keepsFree_constrained⟩
  · exact ⟨_, rfl, keepsFree_alternative⟩
  · exact ⟨_, rfl, keepsFree_label⟩
  · exact ⟨_, rfl, keepsFree_whitelist⟩
  · exact ⟨_, rfl, keepsFree_fakePv⟩
  · exact ⟨_, rfl, keepsFree_relabel⟩
  · exact ⟨_, rfl, keepsFree_codes _ _⟩

end Ocelot
