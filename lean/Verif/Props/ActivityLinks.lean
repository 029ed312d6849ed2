import Verif.Proofs.ActivityLinks
import Verif.Props.Utils

/-! # Properties C28–C31: activity links -/

set_option linter.unusedSimpArgs false

namespace Ocelot
open Spec

/-! ## C28 -/

namespace Spec

/-- The exchange has no activity link, or the link points to a dataset (the last one with that id) with exactly
one production exchange for the flow. -/
def Resolves (data : List Dataset) (e : Exchange) : Prop :=
  ∀ l, e.activityLink = some l → l ≠ "" →
    ∃ t, (data.filter fun d => d.id == l).getLast? = some t ∧
      ((production t).filter fun x => x.name == e.name).length = 1

end Spec

theorem checkLink_spec {data : List Dataset} (hc : ∀ ds ∈ data, Classified ds) (e : Exchange) :
    (Resolves data e → checkLink data e = .ok ()) ∧
    (¬ Resolves data e → checkLink data e = .error .unresolvableActivityLink) := by
  unfold checkLink Resolves
  rcases hl : e.activityLink with _ | l
  · simp
  by_cases h0 : l = ""
  · subst h0; simp
  have hR : (∀ l', some l = some l' → l' ≠ "" → ∃ t, (data.filter fun d => d.id == l').getLast? = some t ∧
      ((production t).filter fun x => x.name == e.name).length = 1) ↔
      ∃ t, (data.filter fun d => d.id == l).getLast? = some t ∧ ((production t).filter fun x => x.name == e.name).length = 1 := by
    constructor
    · intro h; exact h l rfl h0
    · rintro h l' hl' -
      cases hl'; exact h
  rw [hR]
  simp only [h0, if_false, idMapping_eq]
  generalize hg : (data.filter fun d => d.id == l).getLast? = g
  rcases g with _ | t
  · simp [getKey]
  · have htm : t ∈ data := (List.mem_filter.mp (List.mem_of_getLast? hg)).1
    simp only [getKey, productionNamed_ok e.name (hc t htm), ebind_ok]
    by_cases h1 : ((production t).filter fun x => x.name == e.name).length = 1
    · simp [h1]
    · simp [h1]

/-- C28: validation returns the data unchanged exactly when every activity link resolves, and raises
`UnresolvableActivityLink` otherwise. -/
theorem C28_exact (data : List Dataset) (hc : ∀ ds ∈ data, Classified ds) :
    ((∀ ds ∈ data, ∀ e ∈ ds.exchanges, Resolves data e) → checkActivityLinkValidity data = .ok data) ∧
    (¬ (∀ ds ∈ data, ∀ e ∈ ds.exchanges, Resolves data e) →
      checkActivityLinkValidity data = .error .unresolvableActivityLink) := by
  unfold checkActivityLinkValidity
  constructor
  · intro h
    have : forE (fun ds : Dataset => forE (checkLink data) ds.exchanges) data = .ok () :=
      forE_ok_iff.mpr fun ds hds => forE_ok_iff.mpr fun e he => (checkLink_spec hc e).1 (h ds hds e he)
    rw [this]; rfl
  · intro h
    rcases hf : forE (fun ds : Dataset => forE (checkLink data) ds.exchanges) data with err | u
    · obtain ⟨ds, hds, h1⟩ := forE_error hf
      obtain ⟨e, he, h2⟩ := forE_error h1
      have h3 : ¬ Resolves data e := by
        intro hr
        rw [(checkLink_spec hc e).1 hr] at h2
        cases h2
      rw [(checkLink_spec hc e).2 h3] at h2
      cases h2; rfl
    · exfalso
      apply h
      intro ds hds e he
      by_contra hr
      have := (forE_ok_iff.mp ((forE_ok_iff.mp hf) ds hds)) e he
      rw [(checkLink_spec hc e).2 hr] at this
      cases this

theorem getLast_unique {data : List Dataset} (hid : (data.map (·.id)).Nodup) {l : String} {t : Dataset} :
    (data.filter fun d => d.id == l).getLast? = some t ↔ t ∈ data ∧ t.id = l := by
  constructor
  · intro h
    have := List.mem_filter.mp (List.mem_of_getLast? h)
    exact ⟨this.1, by simpa using this.2⟩
  · rintro ⟨ht, rfl⟩
    obtain ⟨l₁, l₂, rfl⟩ := List.append_of_mem ht
    rw [List.map_append, List.map_cons] at hid
    have h1 : ∀ x ∈ l₁, x.id ≠ t.id := by
      intro x hx hxi
      exact (List.nodup_append.mp hid).2.2 x.id (List.mem_map.mpr ⟨x, hx, rfl⟩) t.id (by simp) hxi
    have h2 : ∀ x ∈ l₂, x.id ≠ t.id := by
      intro x hx hxi
      exact (List.nodup_cons.mp (List.nodup_append.mp hid).2.1).1 (List.mem_map.mpr ⟨x, hx, hxi⟩)
    rw [List.filter_append, List.filter_cons_of_pos (by simp)]
    rw [(List.filter_eq_nil_iff (l := l₁)).mpr (by simpa using h1), (List.filter_eq_nil_iff (l := l₂)).mpr (by simpa using h2)]
    rfl

/-- C28 on data with unique ids (checked at the start of every configuration). -/
theorem C28_unique_ids (data : List Dataset) (hc : ∀ ds ∈ data, Classified ds) (hid : (data.map (·.id)).Nodup) :
    checkActivityLinkValidity data = .ok data ↔
    ∀ ds ∈ data, ∀ e ∈ ds.exchanges, ∀ l, e.activityLink = some l → l ≠ "" →
      ∃ t ∈ data, t.id = l ∧ ∃ x, ((production t).filter fun x => x.name == e.name) = [x] := by
  have hiff : (∀ ds ∈ data, ∀ e ∈ ds.exchanges, Resolves data e) ↔
      ∀ ds ∈ data, ∀ e ∈ ds.exchanges, ∀ l, e.activityLink = some l → l ≠ "" →
      ∃ t ∈ data, t.id = l ∧ ∃ x, ((production t).filter fun x => x.name == e.name) = [x] := by
    refine forall₄_congr fun ds hds e he => ?_
    unfold Resolves
    refine forall₃_congr fun l hl h0 => ?_
    constructor
    · rintro ⟨t, ht, h1⟩
      obtain ⟨h2, h3⟩ := (getLast_unique hid).mp ht
      exact ⟨t, h2, h3, List.length_eq_one_iff.mp h1⟩
    · rintro ⟨t, h2, h3, h4⟩
      exact ⟨t, (getLast_unique hid).mpr ⟨h2, h3⟩, List.length_eq_one_iff.mpr h4⟩
  rw [← hiff]
  constructor
  · intro h
    by_contra hn
    rw [(C28_exact data hc).2 hn] at h
    cases h
  · exact (C28_exact data hc).1

/-- Two datasets, one linking to the other. -/
def exampleLinks : List Dataset :=
  [{ name := "a", id := "A", exchanges := [{ name := "p", type := .referenceProduct, amount := 1, pv := some { amount := 100 } }] }, { name := "b", id := "B", exchanges := [{ name := "q", type := .referenceProduct, amount := 5, pv := some { amount := 50 } }, { name := "p", type := .fromTechnosphere, amount := 2, activityLink := some "A" }, { name := "p", type := .fromTechnosphere, amount := 3, activityLink := some "A" }, { name := "q", type := .fromTechnosphere, amount := 1, activityLink := some "B" }] }]

example : (∀ ds ∈ exampleLinks, Classified ds) ∧ (exampleLinks.map (·.id)).Nodup ∧
    checkActivityLinkValidity exampleLinks = .ok exampleLinks := by decide +kernel
example : checkActivityLinkValidity [{ name := "b", exchanges := [{ name := "p", type := .fromTechnosphere, amount := 2, activityLink := some "A" }] }] = .error .unresolvableActivityLink := by
  decide +kernel

/-! ## C29 -/

namespace Spec

/-- The exchanges of `ds` that are activity links to the flow `name` of the dataset `id`. -/
def linksTo (ds : Dataset) (id name : String) : List Exchange :=
  ds.exchanges.filter fun e => e.activityLink == some id && e.name == name

/-- The volume that the other datasets take out of the production of `name` by dataset `id`. -/
def linkedVolume (ratio : Dataset → ℚ) (data : List Dataset) (id name : String) : ℚ :=
  ((data.filter fun ds => ds.id != id).map fun ds => ((linksTo ds id name).map fun e => e.amount * ratio ds).sum).sum

/-- Does some other dataset link there? (Links to an empty id do not count.) -/
def IsLinked (data : List Dataset) (id name : String) : Prop :=
  id ≠ "" ∧ ∃ ds ∈ data, ds.id ≠ id ∧ linksTo ds id name ≠ []

open Classical in
/-- An exchange of dataset `d` after the linked volumes have been added. -/
noncomputable def afterLinks (ratio : Dataset → ℚ) (data : List Dataset) (d : Dataset) (e : Exchange) : Exchange :=
  if isProduction e ∧ IsLinked data d.id e.name then
    { e with pv := e.pv.map fun p => { p with subtracted := some (p.subtracted.getD 0 + linkedVolume ratio data d.id e.name) } }
  else e

/-- Does the dataset link to another one? -/
def LinksOut (ds : Dataset) : Prop := ∃ e ∈ ds.exchanges, ∃ l, e.activityLink = some l ∧ l ≠ "" ∧ l ≠ ds.id

end Spec

theorem volsFor_contribs (ds : Dataset) {i : String} (h0 : i ≠ "") (n : String) :
    volsFor (ds.exchanges.flatMap (contribOf ds)) i n =
      if ds.id = i then [] else (linksTo ds i n).map fun e => e.amount * ratioOf ds := by
  unfold volsFor linksTo
  induction ds.exchanges with
  | nil => simp
  | cons e l ih =>
    rw [List.flatMap_cons, List.filter_append, List.map_append, ih, List.filter_cons]
    unfold contribOf
    rcases hl : e.activityLink with _ | l'
    · simp
    · by_cases h1 : l' = ""
      · subst h1
        have : ¬ "" = i := fun h => h0 h.symm
        simp [this]
      · by_cases h2 : l' = ds.id
        · subst h2
          by_cases h3 : ds.id = i
          · simp [h1, h3]
          · simp [h1, h3]
        · by_cases h4 : l' = i
          · subst h4
            have : ¬ ds.id = l' := fun h => h2 h.symm
            by_cases h5 : e.name = n <;> simp [h1, h2, h5, this]
          · simp [h1, h2, h4]

theorem volsFor_empty (ds : Dataset) (n : String) : volsFor (ds.exchanges.flatMap (contribOf ds)) "" n = [] := by
  unfold volsFor
  rw [List.map_eq_nil_iff, List.filter_eq_nil_iff]
  intro w hw
  obtain ⟨e, -, hw⟩ := List.mem_flatMap.mp hw
  unfold contribOf at hw
  rcases hl : e.activityLink with _ | l' <;> rw [hl] at hw
  · simp at hw
  · simp only at hw
    split at hw
    · simp at hw
    split at hw
    · simp at hw
    · simp only [List.mem_singleton] at hw
      subst hw
      simp_all

theorem volsFor_append (a b : List Contribution) (i n : String) : volsFor (a ++ b) i n = volsFor a i n ++ volsFor b i n := by
  simp [volsFor, List.filter_append]

theorem volsFor_data (data : List Dataset) (i n : String) :
    volsFor (data.flatMap fun ds => ds.exchanges.flatMap (contribOf ds)) i n =
      if i = "" then [] else (data.filter fun ds => ds.id != i).flatMap fun ds => (linksTo ds i n).map fun e => e.amount * ratioOf ds := by
  by_cases h0 : i = ""
  · subst h0
    simp only [if_true]
    induction data with
    | nil => rfl
    | cons d data ih => rw [List.flatMap_cons, volsFor_append, ih, volsFor_empty]; rfl
  · simp only [h0, if_false]
    induction data with
    | nil => rfl
    | cons d data ih =>
      rw [List.flatMap_cons, volsFor_append, ih, volsFor_contribs d h0]
      by_cases h : d.id = i <;> simp [h]

theorem appliedExc_spec (data : List Dataset) (d : Dataset) (e : Exchange) :
    appliedExc (data.flatMap fun ds => ds.exchanges.flatMap (contribOf ds)) d.id e = afterLinks ratioOf data d e := by
  unfold appliedExc afterLinks
  by_cases hp : isProduction e = true
  swap
  · simp [hp]
  rw [if_pos hp, volsFor_data]
  by_cases hL : IsLinked data d.id e.name
  · rw [if_pos (c := isProduction e = true ∧ IsLinked data d.id e.name) ⟨hp, hL⟩]
    obtain ⟨h0, ds, hds, hne, hl⟩ := hL
    rw [if_neg h0]
    have hsum : ((data.filter fun ds => ds.id != d.id).flatMap fun ds => (linksTo ds d.id e.name).map fun e => e.amount * ratioOf ds).sum
        = linkedVolume ratioOf data d.id e.name := by
      unfold linkedVolume
      generalize data.filter (fun ds => ds.id != d.id) = l
      induction l with
      | nil => rfl
      | cons a l ih => rw [List.flatMap_cons, List.sum_append, ih]; simp
    have hnn : ((data.filter fun ds => ds.id != d.id).flatMap fun ds => (linksTo ds d.id e.name).map fun e => e.amount * ratioOf ds) ≠ [] := by
      intro hnil
      rw [List.flatMap_eq_nil_iff] at hnil
      have := hnil ds (List.mem_filter.mpr ⟨hds, by simpa using hne⟩)
      rw [List.map_eq_nil_iff] at this
      exact hl this
    congr 2
    funext p
    rw [← hsum]
    revert hnn
    generalize ((data.filter fun ds => ds.id != d.id).flatMap fun ds => (linksTo ds d.id e.name).map fun e => e.amount * ratioOf ds) = g
    intro hnn
    rcases g with _ | ⟨a, l⟩
    · exact absurd rfl hnn
    · rfl
  · rw [if_neg (c := isProduction e = true ∧ IsLinked data d.id e.name) fun h => hL h.2]
    have : (if d.id = "" then [] else (data.filter fun ds => ds.id != d.id).flatMap fun ds => (linksTo ds d.id e.name).map fun e => e.amount * ratioOf ds) = [] := by
      by_cases h0 : d.id = ""
      · rw [if_pos h0]
      · rw [if_neg h0, List.flatMap_eq_nil_iff]
        intro ds hds
        obtain ⟨h1, h2⟩ := List.mem_filter.mp hds
        rw [List.map_eq_nil_iff]
        by_contra hne
        exact hL ⟨h0, ds, h1, by simpa using h2, hne⟩
    rw [this]
    have hid : (fun p : PV => { p with subtracted := updSub p.subtracted [] }) = id := by funext p; rfl
    rw [hid]
    simp

theorem contribs_ne_nil {ds : Dataset} : (ds.exchanges.flatMap (contribOf ds)) ≠ [] ↔ LinksOut ds := by
  rw [Ne, List.flatMap_eq_nil_iff]
  unfold LinksOut contribOf
  push Not
  refine exists_congr fun e => and_congr_right fun _ => ?_
  rcases e.activityLink with _ | l
  · simp
  · by_cases h0 : l = "" <;> by_cases h1 : l = ds.id <;> simp [h0, h1]

/-- C29: the result is the same data, where every production exchange that other datasets link to has its
subtracted volume increased by the sum, over all those links, of link amount times the linking dataset's
largest production volume to amount ratio. Nothing else changes. -/
theorem C29_volumes (data out : List Dataset) (hid : (data.map (·.id)).Nodup)
    (h : addHardLinkedProductionVolumes data = .ok out) :
    ∃ ratio : Dataset → ℚ, (∀ ds ∈ data, LinksOut ds → getBiggestPvRatio ds = .ok (ratio ds)) ∧
      out = data.map fun d => { d with exchanges := d.exchanges.map (afterLinks ratio data d) } := by
  obtain ⟨rfl, hr⟩ := addHardLinked_inv hid h
  refine ⟨ratioOf, fun ds hds hl => hr ds hds (contribs_ne_nil.mpr hl), ?_⟩
  apply List.map_congr_left
  intro d _
  unfold appliedDs
  congr 1
  exact List.map_congr_left fun e _ => appliedExc_spec data d e

theorem linkedVolume_congr {r r' : Dataset → ℚ} {data : List Dataset} (i n : String) (h0 : i ≠ "")
    (hr : ∀ ds ∈ data, LinksOut ds → r ds = r' ds) : linkedVolume r data i n = linkedVolume r' data i n := by
  unfold linkedVolume
  congr 1
  apply List.map_congr_left
  intro ds hds
  obtain ⟨h1, h2⟩ := List.mem_filter.mp hds
  congr 1
  apply List.map_congr_left
  intro e he
  obtain ⟨h3, h4⟩ := List.mem_filter.mp he
  simp only [Bool.and_eq_true, beq_iff_eq] at h4
  rw [hr ds h1 ⟨e, h3, i, h4.1, h0, fun h => by simp [h] at h2⟩]

/-- C29: the order of the datasets (hence of the links) is irrelevant: permuting the data permutes the
result. -/
theorem C29_order_irrelevant (data data' out out' : List Dataset) (hp : data.Perm data')
    (hid : (data.map (·.id)).Nodup) (h : addHardLinkedProductionVolumes data = .ok out)
    (h' : addHardLinkedProductionVolumes data' = .ok out') : out.Perm out' := by
  obtain ⟨r, hr, rfl⟩ := C29_volumes data out hid h
  obtain ⟨r', hr', rfl⟩ := C29_volumes data' out' ((hp.map _).nodup_iff.mp hid) h'
  have hrr : ∀ ds ∈ data, LinksOut ds → r ds = r' ds := by
    intro ds hds hl
    have h1 := hr ds hds hl
    rw [hr' ds (hp.mem_iff.mp hds) hl] at h1
    exact (Except.ok.inj h1).symm
  have hfun : (fun d : Dataset => { d with exchanges := d.exchanges.map (afterLinks r' data' d) }) =
      fun d : Dataset => { d with exchanges := d.exchanges.map (afterLinks r data d) } := by
    funext d
    congr 1
    apply List.map_congr_left
    intro e _
    unfold afterLinks
    have hiff : IsLinked data' d.id e.name ↔ IsLinked data d.id e.name := by
      unfold IsLinked
      refine and_congr_right fun _ => exists_congr fun ds => and_congr_left fun _ => hp.symm.mem_iff
    by_cases hc : isProduction e = true ∧ IsLinked data d.id e.name
    · rw [if_pos hc, if_pos ⟨hc.1, hiff.mpr hc.2⟩]
      have : linkedVolume r' data' d.id e.name = linkedVolume r data d.id e.name := by
        rw [linkedVolume_congr d.id e.name hc.2.1 hrr]
        unfold linkedVolume
        exact (((hp.symm.filter _).map _).sum_eq)
      rw [this]
    · rw [if_neg hc, if_neg fun h => hc ⟨h.1, hiff.mp h.2⟩]
  rw [hfun]
  exact hp.map _

theorem pvRatios_error {l : List Exchange} {err : Err} (hpv : ∀ e ∈ l, isProduction e = true → e.pv ≠ none)
    (h : pvRatios l = .error err) : False := by
  induction l with
  | nil => cases h
  | cons e l ih =>
    unfold pvRatios at h
    split at h
    · next hc =>
      rcases bind_eq_error.mp h with h | ⟨p, -, h⟩
      · have := hpv e (by simp) (by simp [isProduction, hc.1])
        rcases hp : e.pv with _ | p
        · exact this hp
        · rw [hp] at h; cases h
      · rcases bind_eq_error.mp h with h | ⟨r, -, h⟩
        · exact ih (fun x hx => hpv x (by simp [hx])) h
        · cases h
    · exact ih (fun x hx => hpv x (by simp [hx])) h

theorem getBiggest_error {ds : Dataset} {err : Err} (hpv : ∀ e ∈ ds.exchanges, isProduction e = true → e.pv ≠ none)
    (h : getBiggestPvRatio ds = .error err) : err = .zeroProduction := by
  unfold getBiggestPvRatio at h
  rcases bind_eq_error.mp h with h | ⟨rs, -, h⟩
  · exact (pvRatios_error hpv h).elim
  · split at h
    · cases h; rfl
    · cases h

theorem modifyLast_error {i : String} {f : Dataset → Except Err Dataset} {st : List Dataset} {err : Err}
    (h : modifyLast i f st = .error err) (hex : ∃ d ∈ st, d.id = i) : ∃ d ∈ st, d.id = i ∧ f d = .error err := by
  induction st with
  | nil => obtain ⟨d, hd, -⟩ := hex; cases hd
  | cons x l ih =>
    unfold modifyLast at h
    by_cases hany : (l.any fun x => x.id == i) = true
    · rw [if_pos hany] at h
      rcases bind_eq_error.mp h with h | ⟨r, -, h⟩
      · simp only [List.any_eq_true, beq_iff_eq] at hany
        obtain ⟨d, hd, h1, h2⟩ := ih h hany
        exact ⟨d, by simp [hd], h1, h2⟩
      · cases h
    · rw [if_neg hany] at h
      have hx : x.id = i := by
        obtain ⟨d, hd, hi⟩ := hex
        rcases List.mem_cons.mp hd with rfl | hd
        · exact hi
        · exact absurd (List.any_eq_true.mpr ⟨d, hd, by simp [hi]⟩) hany
      rw [if_pos hx] at h
      rcases bind_eq_error.mp h with h | ⟨d', -, h⟩
      · exact ⟨x, by simp, hx, h⟩
      · cases h

theorem production_applied (ws : List Contribution) (d : Dataset) (n : String) :
    ((production (appliedDs ws d)).filter fun e => e.name == n) = ((production d).filter fun e => e.name == n).map (appliedExc ws d.id) := by
  unfold production appliedDs
  simp only
  rw [List.filter_filter, List.filter_filter, List.filter_map]
  congr 2
  funext e
  simp only [Function.comp]
  rw [appliedExc_prod, appliedExc_name]

theorem classified_applied {ws : List Contribution} {d : Dataset} (h : Classified d) : Classified (appliedDs ws d) := by
  intro e he
  obtain ⟨x, hx, rfl⟩ := List.mem_map.mp he
  rw [appliedExc_frame]
  exact h x hx

/-- After a successful check of the links the only exception is that of the ratio of a dataset with a link. -/
theorem hardLinked_error (data : List Dataset) (hid : (data.map (·.id)).Nodup)
    (hc : ∀ ds ∈ data, Classified ds) (hpv : ∀ ds ∈ data, ∀ e ∈ ds.exchanges, isProduction e = true → e.pv ≠ none)
    (hv : checkActivityLinkValidity data = .ok data) (err : Err)
    (h : addHardLinkedProductionVolumes data = .error err) : ∃ ds ∈ data, getBiggestPvRatio ds = .error err := by
  have hres := (C28_unique_ids data hc hid).mp hv
  unfold addHardLinkedProductionVolumes at h
  have hstep : ∀ (ds : Dataset) (s s' : List Dataset) (e : Exchange), (∃ ws, s = data.map (appliedDs ws)) →
      hardLinkStep ds s e = .ok s' → ∃ ws, s' = data.map (appliedDs ws) := by
    rintro ds s s' e ⟨ws, rfl⟩ hs
    exact ⟨_, (hardLinkStep_inv hid hs).1⟩
  obtain ⟨-, ds, st, hds, ⟨ws, rfl⟩, hin⟩ := foldE_error (I := fun _ st => ∃ ws, st = data.map (appliedDs ws)) h
    ⟨[], by
      have : appliedDs ([] : List Contribution) = id := by funext d; exact appliedDs_nil d
      simp only [this, List.map_id]⟩ (by
      rintro pre ds s s' hds hI hs
      exact foldE_inv (I := fun _ st => ∃ ws, st = data.map (appliedDs ws)) hs hI fun _ e s s' _ hI hs => hstep ds s s' e hI hs)
  obtain ⟨-, e, st, he, ⟨ws, rfl⟩, hin⟩ := foldE_error (I := fun _ st => ∃ ws, st = data.map (appliedDs ws)) hin ⟨ws, rfl⟩
    fun _ e s s' _ hI hs => hstep ds s s' e hI hs
  unfold hardLinkStep at hin
  rcases hl : e.activityLink with _ | l <;> rw [hl] at hin
  · cases hin
  simp only at hin
  by_cases h0 : l = ""
  · rw [if_pos h0] at hin; cases hin
  rw [if_neg h0] at hin
  by_cases h1 : l = ds.id
  · rw [if_pos h1] at hin; cases hin
  rw [if_neg h1] at hin
  obtain ⟨t, ht, hti, x, hx⟩ := hres ds hds e he l hl h0
  obtain ⟨t', ht', hti', herr⟩ := modifyLast_error hin ⟨appliedDs ws t, List.mem_map.mpr ⟨t, ht, rfl⟩, hti⟩
  obtain ⟨t'', ht'', rfl⟩ := List.mem_map.mp ht'
  have hteq : t'' = t := by
    have a1 := (getLast_unique hid).mpr ⟨ht'', hti'⟩
    have a2 := (getLast_unique hid).mpr ⟨ht, hti⟩
    change (data.filter fun d => d.id == l).getLast? = some t'' at a1
    rw [a2] at a1
    cases a1; rfl
  subst hteq
  unfold addToTarget at herr
  rw [productionNamed_ok e.name (classified_applied (hc t'' ht)), production_applied, hx] at herr
  simp only [ebind_ok, List.map_cons, List.map_nil] at herr
  rcases bind_eq_error.mp herr with herr | ⟨s, -, herr⟩
  · exact ⟨ds, hds, herr⟩
  · have hxp : x ∈ production t'' := by
      have : x ∈ (production t'').filter fun x => x.name == e.name := by rw [hx]; simp
      exact (List.mem_filter.mp this).1
    obtain ⟨hxe, hxp⟩ := List.mem_filter.mp hxp
    have hpvx := hpv t'' ht x hxe hxp
    rcases hpx : x.pv with _ | p
    · exact absurd hpx hpvx
    · have : (appliedExc ws t''.id x).pv = some { p with subtracted := updSub p.subtracted (volsFor ws t''.id x.name) } := by
        unfold appliedExc
        rw [if_pos hxp, hpx]
        rfl
      rw [this] at herr
      cases herr

/-- C29: after a successful validity check on data with unique ids and production volumes, neither the lookup
nor the assertion can fail: the only possible exception is `ZeroProduction`. -/
theorem C29_only_zero_production (data : List Dataset) (hid : (data.map (·.id)).Nodup)
    (hc : ∀ ds ∈ data, Classified ds) (hpv : ∀ ds ∈ data, ∀ e ∈ ds.exchanges, isProduction e = true → e.pv ≠ none)
    (hv : checkActivityLinkValidity data = .ok data) (err : Err)
    (h : addHardLinkedProductionVolumes data = .error err) : err = .zeroProduction := by
  obtain ⟨ds, hds, herr⟩ := hardLinked_error data hid hc hpv hv err h
  exact getBiggest_error (hpv ds hds) herr

/-- C29: when in addition every dataset has a reference product with an amount other than zero, the function succeeds. -/
theorem C29_total (data : List Dataset) (hid : (data.map (·.id)).Nodup)
    (hc : ∀ ds ∈ data, Classified ds) (hpv : ∀ ds ∈ data, ∀ e ∈ ds.exchanges, isProduction e = true → e.pv ≠ none)
    (hv : checkActivityLinkValidity data = .ok data) (hr : ∀ ds ∈ data, ∃ r ∈ refs ds, r.amount ≠ 0) :
    ∃ out, addHardLinkedProductionVolumes data = .ok out := by
  rcases h : addHardLinkedProductionVolumes data with err | out
  · obtain ⟨ds, hds, herr⟩ := hardLinked_error data hid hc hpv hv err h
    obtain ⟨r, hr'⟩ := (C12_biggest_outcome ds).2.2 (hr ds hds) fun e he _ => by
      obtain ⟨h1, h2⟩ := List.mem_filter.mp he
      exact hpv ds hds e h1 (by unfold isProduction; rw [h2]; rfl)
    rw [hr'] at herr
    cases herr
  · exact ⟨out, rfl⟩

example : addHardLinkedProductionVolumes exampleLinks = .ok [{ name := "a", id := "A", exchanges := [{ name := "p", type := .referenceProduct, amount := 1, pv := some { amount := 100, subtracted := some 50 } }] }, { name := "b", id := "B", exchanges := [{ name := "q", type := .referenceProduct, amount := 5, pv := some { amount := 50 } }, { name := "p", type := .fromTechnosphere, amount := 2, activityLink := some "A" }, { name := "p", type := .fromTechnosphere, amount := 3, activityLink := some "A" }, { name := "q", type := .fromTechnosphere, amount := 1, activityLink := some "B" }] }] := by
  decide +kernel

/-! ## C30 -/

namespace Spec

/-- A production exchange of a transforming activity after the reduction. -/
def reduced (e : Exchange) : Exchange :=
  { e with pv := e.pv.map fun p => match p.subtracted with
    | none => p
    | some s => { p with originalAmount := some p.amount, amount := max (p.amount - s) 0 } }

end Spec

/-- C30: exactly the production exchanges of transforming activities with a subtracted volume change: the
original amount is stored and the amount becomes the difference, at least zero. -/
theorem C30_update (data out : List Dataset) (h : updateTransformingVolumes data = .ok out) :
    out = data.map fun d => if d.type = .transforming
      then { d with exchanges := d.exchanges.map fun e => if isProduction e then reduced e else e } else d := by
  have hF := mapE_ok_iff.mp h
  clear h
  induction hF with
  | nil => rfl
  | @cons d d' l l' hab _ ih =>
    rw [List.map_cons, ← ih]
    congr 1
    by_cases ht : d.type = .transforming
    · rw [if_pos ht] at hab
      rw [if_pos ht]
      obtain ⟨ex, hex, h2⟩ := bind_eq_ok.mp hab
      cases h2
      congr 1
      have hF := mapE_ok_iff.mp hex
      clear hex hab ht
      generalize d.exchanges = ex0 at hF
      induction hF with
      | nil => rfl
      | @cons e e' r r' he _ ih2 =>
        rw [List.map_cons, ← ih2]
        congr 1
        unfold updateProduction at he
        obtain ⟨b, hb, he⟩ := bind_eq_ok.mp he
        obtain ⟨-, rfl⟩ := isAllocatable_ok' hb
        by_cases hp : isProduction e = true
        · rw [if_pos hp] at he
          obtain ⟨p, hpv, he⟩ := bind_eq_ok.mp he
          cases he
          rw [if_pos hp]
          unfold reduced
          rw [getKey_eq_ok.mp hpv]
          rfl
        · rw [if_neg hp] at he
          cases he
          rw [if_neg hp]
    · rw [if_neg ht] at hab
      cases hab
      rw [if_neg ht]

theorem reduced_nonneg (e : Exchange) (p : PV) (hp : (reduced e).pv = some p) (s : ℚ) (hs : p.subtracted = some s) :
    0 ≤ p.amount ∧ ∃ orig, p.originalAmount = some orig ∧ p.amount ≤ max orig 0 + max (-s) 0 ∧ (s ≤ orig → p.amount + s = orig) := by
  unfold reduced at hp
  rcases he : e.pv with _ | q <;> rw [he] at hp
  · cases hp
  simp only [Option.map_some, Option.some.injEq] at hp
  rcases hq : q.subtracted with _ | s' <;> rw [hq] at hp <;> subst hp
  · rw [hq] at hs; cases hs
  · simp only [hq, Option.some.injEq] at hs ⊢
    subst hs
    refine ⟨le_max_right _ _, q.amount, rfl, ?_, ?_⟩
    · apply max_le
      · have h1 := le_max_left q.amount 0
        have h2 := le_max_left (-s') 0
        linarith
      · have h1 := le_max_right q.amount 0
        have h2 := le_max_right (-s') 0
        linarith
    · intro h
      rw [max_eq_left (by linarith)]
      ring

/-- C30: afterwards, in transforming activities, a production exchange with a subtracted volume has a
nonnegative amount, its original amount is stored, and the two differ by the subtracted volume when the
original amount suffices. -/
theorem C30_nonneg (data out : List Dataset) (h : updateTransformingVolumes data = .ok out) :
    ∀ d ∈ out, d.type = .transforming → ∀ e ∈ d.exchanges, isProduction e = true →
    ∀ p, e.pv = some p → ∀ s, p.subtracted = some s →
      0 ≤ p.amount ∧ ∃ orig, p.originalAmount = some orig ∧ p.amount ≤ max orig 0 + max (-s) 0 ∧ (s ≤ orig → p.amount + s = orig) := by
  rw [C30_update data out h]
  intro d hd ht e he hprod p hp s hs
  obtain ⟨d₀, -, rfl⟩ := List.mem_map.mp hd
  by_cases ht0 : d₀.type = .transforming
  · rw [if_pos ht0] at he
    obtain ⟨e₀, -, rfl⟩ := List.mem_map.mp he
    by_cases hp0 : isProduction e₀ = true
    · rw [if_pos hp0] at hp
      exact reduced_nonneg e₀ p hp s hs
    · rw [if_neg hp0] at hprod
      exact absurd hprod hp0
  · rw [if_neg ht0] at ht
    exact absurd ht ht0

/-- C30: the function succeeds when, in transforming activities, byproducts are classified and
production exchanges have a production volume. -/
theorem C30_total (data : List Dataset)
    (h : ∀ d ∈ data, d.type = .transforming → Classified d ∧ ∀ e ∈ d.exchanges, isProduction e = true → e.pv ≠ none) :
    ∃ out, updateTransformingVolumes data = .ok out := by
  apply mapE_ok_of_forall
  intro d hd
  by_cases ht : d.type = .transforming
  · obtain ⟨hc, hpv⟩ := h d hd ht
    obtain ⟨ex, hex⟩ : ∃ ex, mapE updateProduction d.exchanges = .ok ex := by
      apply mapE_ok_of_forall
      intro e he
      unfold updateProduction
      rw [isAllocatable_ok (hc e he)]
      simp only [ebind_ok]
      by_cases hp : isProduction e = true
      · rw [if_pos hp]
        rcases hpe : e.pv with _ | p
        · exact absurd hpe (hpv e he hp)
        · exact ⟨_, rfl⟩
      · rw [if_neg hp]; exact ⟨_, rfl⟩
    rw [if_pos ht, hex]
    exact ⟨_, rfl⟩
  · rw [if_neg ht]; exact ⟨_, rfl⟩

example : updateTransformingVolumes [{ name := "a", exchanges := [{ name := "p", type := .referenceProduct, amount := 1, pv := some { amount := 100, subtracted := some 130 } }, { name := "q", type := .byproduct, cls := some .allocatable, amount := 1, pv := some { amount := 7, subtracted := some 3 } }] }] = .ok [{ name := "a", exchanges := [{ name := "p", type := .referenceProduct, amount := 1, pv := some { amount := 0, originalAmount := some 100, subtracted := some 130 } }, { name := "q", type := .byproduct, cls := some .allocatable, amount := 1, pv := some { amount := 4, originalAmount := some 7, subtracted := some 3 } }] }] := by
  decide +kernel

/-! ## C31 -/

namespace Spec

/-- The dataset has a (nonempty) parent `p`. -/
def HasParent (d : Dataset) (p : String) : Prop := d.parent = some p ∧ p ≠ ""

/-- An exchange after redirecting links from the parent to the dataset itself. -/
def redirected (d : Dataset) (e : Exchange) : Exchange :=
  if isProduction e = false ∧ d.parent ≠ none ∧ d.parent ≠ some "" ∧ e.activityLink = d.parent
  then { e with activityLink := some d.id } else e

end Spec

theorem redirectToChild_eq {p i : String} {e e' : Exchange} (h : redirectToChild p i e = .ok e') :
    e' = if isProduction e = false ∧ e.activityLink = some p then { e with activityLink := some i } else e := by
  unfold redirectToChild at h
  obtain ⟨b, hb, h⟩ := bind_eq_ok.mp h
  obtain ⟨-, rfl⟩ := isAllocatable_ok' hb
  by_cases hp : isProduction e = true
  · rw [if_pos hp] at h; cases h; simp [hp]
  · rw [if_neg hp] at h
    by_cases hl : e.activityLink = some p
    · rw [if_pos hl] at h; cases h; simp [hp, hl]
    · rw [if_neg hl] at h; cases h; simp [hp, hl]

/-- C31: exactly the non-production exchanges that link to the dataset's parent change, and they then link to
the dataset itself. -/
theorem C31_redirect (data out : List Dataset) (h : updateActivityLinkParentChild data = .ok out) :
    out = data.map fun d => { d with exchanges := d.exchanges.map (redirected d) } := by
  have hF := mapE_ok_iff.mp h
  clear h
  induction hF with
  | nil => rfl
  | @cons d d' l l' hab _ ih =>
    rw [List.map_cons, ← ih]
    congr 1
    unfold updateParentChild at hab
    have hnop : (d.parent = none ∨ d.parent = some "") → d = { d with exchanges := d.exchanges.map (redirected d) } := by
      intro hp
      have : redirected d = id := by
        funext e
        unfold redirected
        rw [if_neg]
        · rfl
        · rintro ⟨-, h1, h2, -⟩
          rcases hp with hp | hp
          · exact h1 hp
          · exact h2 hp
      rw [this, List.map_id]
    rcases hp : d.parent with _ | p
    · rw [hp] at hab; cases hab; rw [← hp]; exact hnop (Or.inl hp)
    · rw [hp] at hab
      simp only at hab
      by_cases h0 : p = ""
      · rw [if_pos h0] at hab; cases hab; rw [← hp]; exact hnop (Or.inr (by rw [hp, h0]))
      · rw [if_neg h0] at hab
        obtain ⟨ex, hex, h2⟩ := bind_eq_ok.mp hab
        cases h2
        congr 1
        have := mapE_map_eq hex (p := redirected d) (q := fun e => e) (by
          intro a _ b hb
          rw [redirectToChild_eq hb]
          unfold redirected
          simp [hp, h0])
        simpa using this

/-- C31: afterwards no non-production exchange links to the parent, unless the parent is the dataset itself. -/
theorem C31_no_parent_links (data out : List Dataset) (h : updateActivityLinkParentChild data = .ok out) :
    ∀ d ∈ out, ∀ p, HasParent d p → p ≠ d.id → ∀ e ∈ d.exchanges, isProduction e = false → e.activityLink ≠ some p := by
  rw [C31_redirect data out h]
  intro d hd p hp hne e he hprod hl
  obtain ⟨d₀, -, rfl⟩ := List.mem_map.mp hd
  obtain ⟨e₀, -, rfl⟩ := List.mem_map.mp he
  have hp1 : d₀.parent = some p := hp.1
  unfold redirected at hl hprod
  by_cases hc : isProduction e₀ = false ∧ d₀.parent ≠ none ∧ d₀.parent ≠ some "" ∧ e₀.activityLink = d₀.parent
  · rw [if_pos hc] at hl
    simp only [Option.some.injEq] at hl
    exact hne hl.symm
  · rw [if_neg hc] at hl hprod
    exact hc ⟨hprod, by rw [hp1]; simp, by rw [hp1]; simpa using hp.2, by rw [hl, hp1]⟩

/-- C31: a second application changes nothing. -/
theorem C31_idempotent (data out : List Dataset) (h : updateActivityLinkParentChild data = .ok out) :
    updateActivityLinkParentChild out = .ok out := by
  obtain ⟨out2, h2⟩ : ∃ o, updateActivityLinkParentChild out = .ok o := by
    apply mapE_ok_of_forall
    intro d hd
    obtain ⟨d₀, -, hd0⟩ := mapE_mem h hd
    unfold updateParentChild at hd0 ⊢
    rcases hp : d₀.parent with _ | p
    · rw [hp] at hd0
      cases hd0
      rw [hp]; exact ⟨_, rfl⟩
    · rw [hp] at hd0
      simp only at hd0
      by_cases h0 : p = ""
      · rw [if_pos h0] at hd0; cases hd0
        rw [hp]; simp only [if_pos h0]; exact ⟨_, rfl⟩
      · rw [if_neg h0] at hd0
        obtain ⟨ex, hex, h2⟩ := bind_eq_ok.mp hd0
        cases h2
        simp only [hp, if_neg h0]
        obtain ⟨ex2, hex2⟩ : ∃ r, mapE (redirectToChild p d₀.id) ex = .ok r := by
          apply mapE_ok_of_forall
          intro e he
          obtain ⟨e₀, -, he0⟩ := mapE_mem hex he
          have heq := redirectToChild_eq he0
          unfold redirectToChild at he0 ⊢
          obtain ⟨b, hb, -⟩ := bind_eq_ok.mp he0
          have hb2 := (isAllocatable_ok' hb).1
          rw [isAllocatable_ok (e := e) (by rw [heq]; split <;> exact hb2)]
          simp only [ebind_ok]
          split
          · exact ⟨_, rfl⟩
          · split <;> exact ⟨_, rfl⟩
        rw [hex2]
        exact ⟨_, rfl⟩
  rw [h2, C31_redirect out out2 h2]
  congr 1
  conv_rhs => rw [← List.map_id out]
  apply List.map_congr_left
  intro d hd
  have hno := C31_no_parent_links data out h d hd
  have : d.exchanges.map (redirected d) = d.exchanges := by
    conv_rhs => rw [← List.map_id d.exchanges]
    apply List.map_congr_left
    intro e he
    unfold redirected
    split
    · next hc =>
      obtain ⟨h1, h2, h3, h4⟩ := hc
      rcases hp : d.parent with _ | p
      · exact absurd hp h2
      · have hp' : HasParent d p := ⟨hp, by rintro rfl; exact h3 hp⟩
        by_cases hi : p = d.id
        · rw [hp, hi] at h4
          cases e; simp_all
        · exact absurd (h4.trans hp) (hno p hp' hi e he h1)
    · rfl
  rw [this]
  rfl

example : updateActivityLinkParentChild [{ name := "m", id := "C", parent := some "P", exchanges := [{ name := "p", type := .referenceProduct, amount := 1 }, { name := "p", type := .fromTechnosphere, amount := 2, activityLink := some "P" }, { name := "q", type := .fromTechnosphere, amount := 2, activityLink := some "Q" }] }] = .ok [{ name := "m", id := "C", parent := some "P", exchanges := [{ name := "p", type := .referenceProduct, amount := 1 }, { name := "p", type := .fromTechnosphere, amount := 2, activityLink := some "C" }, { name := "q", type := .fromTechnosphere, amount := 2, activityLink := some "Q" }] }] := by
  decide +kernel

end Ocelot
