import Verif.Model.RestOfWorld
import Verif.Proofs.ActivityLinks
import Verif.Proofs.Topology
import Verif.Proofs.Dict
import Verif.Props.Utils

/-! # Properties C38 and C51 -/

set_option linter.unusedSimpArgs false

namespace Ocelot
open Spec

/-! ## Specification -/

namespace Spec

/-- Names of the production exchanges with nonzero amount. -/
def liveProducts (ds : Dataset) : List String := ((production ds).filter fun e => e.amount != 0).map (·.name)

/-- Same activity: same name and same products (as multisets). -/
def SameActivity (a b : Dataset) : Prop := a.name = b.name ∧ (liveProducts a).Perm (liveProducts b)

instance (a b : Dataset) : Decidable (SameActivity a b) := by unfold SameActivity; infer_instance

/-- The datasets of the same activity, in order. -/
def activityGroup (data : List Dataset) (ds : Dataset) : List Dataset := data.filter fun o => decide (SameActivity o ds)

/-- Original production volume of the single reference product, zero when unknown. -/
def originalVolume (ds : Dataset) : ℚ :=
  match refs ds with
  | [e] => (e.pv.map fun p => p.originalAmount.getD p.amount).getD 0
  | _ => 0

/-- Sum of the original volumes of the non-`GLO` members. -/
def regionalSum (group : List Dataset) : ℚ :=
  ((group.filter fun o => o.location != "GLO").map originalVolume).sum

/-- A `GLO` dataset whose group has other members and does not start with a market group. -/
def Relabelled (data : List Dataset) (ds : Dataset) : Prop :=
  ds.location = "GLO" ∧ 1 < (activityGroup data ds).length ∧ ((activityGroup data ds).head?.map (·.type)) ≠ some .marketGroup

instance (data : List Dataset) (ds : Dataset) : Decidable (Relabelled data ds) := by unfold Relabelled; infer_instance

/-- A reference product exchange whose volume has been reduced by `v`. -/
def restVolume (v : ℚ) (e : Exchange) : Exchange :=
  if e.type = .referenceProduct then
    { e with pv := e.pv.map fun p => { p with globalAmount := some p.amount, amount := max (p.amount - v) 0 } }
  else e

/-- The dataset after relabelling. -/
def asRow (data : List Dataset) (ds : Dataset) : Dataset :=
  { ds with location := "RoW", exchanges := ds.exchanges.map (restVolume (regionalSum (activityGroup data ds))) }

end Spec

/-! ## The keys -/

theorem rowGrouper_ok {ds : Dataset} {k : String × List String} (h : rowGrouper ds = .ok k) :
    k = (ds.name, sortNames (liveProducts ds)) ∧ Classified ds := by
  unfold rowGrouper at h
  obtain ⟨l, hl, h⟩ := bind_eq_ok.mp h
  cases h
  have hc : Classified ds := by
    intro e he
    obtain ⟨b, hb⟩ := filterE_ok_all hl e he
    exact (isAllocatable_ok' hb).1
  rw [allocatableProduction_ok hc] at hl
  cases hl
  exact ⟨rfl, hc⟩

theorem rowGrouper_of {ds : Dataset} (h : Classified ds) : rowGrouper ds = .ok (ds.name, sortNames (liveProducts ds)) := by
  unfold rowGrouper
  rw [allocatableProduction_ok h]
  rfl

/-- The key as a total function. -/
def rowKey (ds : Dataset) : String × List String := (ds.name, sortNames (liveProducts ds))

theorem rowKey_eq {a b : Dataset} : rowKey a = rowKey b ↔ SameActivity a b := by
  unfold rowKey SameActivity
  rw [Prod.mk.injEq]
  refine and_congr_right fun _ => ?_
  constructor
  · intro h
    have h1 := (sortNames_perm (liveProducts a)).symm
    rw [h] at h1
    exact h1.trans (sortNames_perm _)
  · exact sortNames_congr

theorem withRowKey_mapE {data : List Dataset} {st : List ((String × List String) × Dataset)}
    (h : mapE withRowKey data = .ok st) : st = (data.map fun d => (rowKey d, d)) ∧ ∀ d ∈ data, Classified d := by
  have hF := mapE_ok_iff.mp h
  clear h
  induction hF with
  | nil => simp
  | @cons d p l r hab _ ih =>
    obtain ⟨k, hk, h2⟩ := bind_eq_ok.mp hab
    obtain ⟨rfl, hc⟩ := rowGrouper_ok hk
    cases h2
    rw [ih.1]
    exact ⟨rfl, by simpa using ⟨hc, fun d hd => ih.2 d hd⟩⟩

theorem foldE_inv' {α σ : Type} {f : σ → α → Except Err σ} {I : List α → σ → Prop} {s t : σ} {l : List α}
    (h : foldE f s l = .ok t) (h0 : I [] s)
    (hstep : ∀ pre a post s s', l = pre ++ a :: post → I pre s → f s a = .ok s' → I (pre ++ [a]) s') : I l t := by
  have main : ∀ (rest pre : List α) (s : σ), l = pre ++ rest → I pre s → foldE f s rest = .ok t → I l t := by
    intro rest
    induction rest with
    | nil => intro pre s hl hI h; cases h; rw [hl, List.append_nil]; exact hI
    | cons a rest ih =>
      intro pre s hl hI h
      obtain ⟨s', h1, h2⟩ := bind_eq_ok.mp h
      exact ih (pre ++ [a]) s' (by rw [hl]; simp) (hstep pre a rest s s' hl hI h1) h2
  exact main l [] s (by simp) h0 h

theorem activityGroup_eq (data : List Dataset) (d : Dataset) :
    activityGroup data d = data.filter fun o => decide (rowKey o = rowKey d) := by
  unfold activityGroup
  congr 1
  funext o
  exact decide_eq_decide.mpr rowKey_eq.symm

/-- The state of a dataset once the keys in `done` have been processed. -/
def rowAfter (data : List Dataset) (done : List (String × List String)) (d : Dataset) : Dataset :=
  if rowKey d ∈ done ∧ Relabelled data d then asRow data d else d

theorem restVolume_eq : restVolume = relabelVolume := rfl

theorem originalVolume_eq (d : Dataset) : (originalProductionVolume d).getD 0 = originalVolume d := by
  unfold originalProductionVolume originalVolume
  have hr : referenceProducts d = refs d := rfl
  rw [hr]
  rcases refs d with _ | ⟨e, _ | ⟨e', l⟩⟩ <;> rfl

theorem regionalVolume_eq (g : List Dataset) : regionalVolume g = regionalSum g := by
  unfold regionalVolume regionalSum
  congr 1
  exact List.map_congr_left fun d _ => originalVolume_eq d

theorem relabelGlobal_ok {v : ℚ} {d d' : Dataset} (h : relabelGlobal v d = .ok d') :
    d' = { d with location := "RoW", exchanges := d.exchanges.map (restVolume v) } ∧
    ∃ e p, refs d = [e] ∧ e.pv = some p := by
  unfold relabelGlobal at h
  obtain ⟨rp, hrp, h⟩ := bind_eq_ok.mp h
  obtain ⟨p, hp, h⟩ := bind_eq_ok.mp h
  cases h
  exact ⟨rfl, rp, p, getSingle_ok.mp hrp, getKey_eq_ok.mp hp⟩

namespace Spec

/-- What is needed to relabel a dataset: it is the only `GLO` dataset of its group and it has one reference
product, with a production volume. -/
def CanRelabel (data : List Dataset) (d : Dataset) : Prop :=
  ((activityGroup data d).filter fun o => o.location == "GLO").length = 1 ∧ ∃ e p, refs d = [e] ∧ e.pv = some p

end Spec

theorem relabelGroup_step {data : List Dataset} {pre : List (String × List String)} {k : String × List String}
    {st' : List ((String × List String) × Dataset)} (hk : k ∉ pre)
    (h : relabelGroup (data.map fun d => (rowKey d, rowAfter data pre d)) k = .ok st') :
    st' = (data.map fun d => (rowKey d, rowAfter data (pre ++ [k]) d)) ∧
    ∀ d ∈ data, rowKey d = k → Relabelled data d → CanRelabel data d := by
  have hgroup : (((data.map fun d => (rowKey d, rowAfter data pre d)).filter fun p => decide (p.1 = k)).map (·.2)) =
      data.filter fun o => decide (rowKey o = k) := by
    rw [List.filter_map, List.map_map]
    conv_rhs => rw [← List.map_id (data.filter fun o => decide (rowKey o = k))]
    apply List.map_congr_left
    intro d hd
    have hdk : rowKey d = k := by simpa using (List.mem_filter.mp hd).2
    simp only [Function.comp, id]
    unfold rowAfter
    rw [if_neg]
    rintro ⟨h1, -⟩
    exact hk (hdk ▸ h1)
  unfold relabelGroup at h
  simp only [hgroup] at h
  have hgr : ∀ d, rowKey d = k → activityGroup data d = data.filter fun o => decide (rowKey o = k) := by
    intro d hd; rw [activityGroup_eq, hd]
  have hsame : (∀ d ∈ data, rowKey d = k → ¬ Relabelled data d) →
      (data.map fun d => (rowKey d, rowAfter data pre d)) = data.map fun d => (rowKey d, rowAfter data (pre ++ [k]) d) := by
    intro hno
    apply List.map_congr_left
    intro d hd
    congr 1
    unfold rowAfter
    have : (rowKey d ∈ pre ∧ Relabelled data d) ↔ (rowKey d ∈ pre ++ [k] ∧ Relabelled data d) := by
      rw [List.mem_append, List.mem_singleton]
      constructor
      · rintro ⟨h1, h2⟩; exact ⟨Or.inl h1, h2⟩
      · rintro ⟨h1 | h1, h2⟩
        · exact ⟨h1, h2⟩
        · exact absurd h2 (hno d hd h1)
    simp only [this]
  by_cases hmg : ((data.filter fun o => decide (rowKey o = k)).head?.map (·.type)) = some .marketGroup
  · rw [if_pos hmg] at h
    cases h
    have hno : ∀ d ∈ data, rowKey d = k → ¬ Relabelled data d := by
      intro d _ hdk hr
      apply hr.2.2
      rw [hgr d hdk]; exact hmg
    exact ⟨hsame hno, fun d hd hdk hr => absurd hr (hno d hd hdk)⟩
  · rw [if_neg hmg] at h
    by_cases hc : 1 < (data.filter fun o => decide (rowKey o = k)).length ∧
        (data.filter fun o => decide (rowKey o = k)).any (fun d => d.location == "GLO") = true
    · rw [if_pos hc] at h
      obtain ⟨u, hu, h⟩ := bind_eq_ok.mp h
      have hle : ((data.filter fun o => decide (rowKey o = k)).filter fun o => o.location == "GLO").length ≤ 1 := by
        unfold checkSingleGlobalDataset at hu
        by_contra hne
        rw [if_pos (by omega)] at hu
        cases hu
      have hge : 1 ≤ ((data.filter fun o => decide (rowKey o = k)).filter fun o => o.location == "GLO").length := by
        obtain ⟨d, hd, hl⟩ := List.any_eq_true.mp hc.2
        exact List.length_pos_of_mem (List.mem_filter.mpr ⟨hd, hl⟩)
      have hF := mapE_ok_iff.mp h
      rw [regionalVolume_eq] at hF
      have key : ∀ d ∈ data, ∀ q, relabelMember k (regionalSum (data.filter fun o => decide (rowKey o = k))) (rowKey d, rowAfter data pre d) = .ok q →
          q = (rowKey d, rowAfter data (pre ++ [k]) d) ∧ (rowKey d = k → Relabelled data d → ∃ e p, refs d = [e] ∧ e.pv = some p) := by
        intro d hd q hq
        unfold relabelMember at hq
        by_cases hdk : rowKey d = k
        · have hpre : rowAfter data pre d = d := by
            unfold rowAfter; rw [if_neg]; rintro ⟨h1, -⟩; exact hk (hdk ▸ h1)
          simp only [hpre] at hq
          by_cases hloc : d.location = "GLO"
          · rw [if_pos ⟨hdk, hloc⟩] at hq
            obtain ⟨d', hd', hq⟩ := bind_eq_ok.mp hq
            cases hq
            obtain ⟨rfl, hrefs⟩ := relabelGlobal_ok hd'
            have hr : Relabelled data d := ⟨hloc, by rw [hgr d hdk]; exact hc.1, by rw [hgr d hdk]; exact hmg⟩
            refine ⟨?_, fun _ _ => hrefs⟩
            unfold rowAfter
            rw [if_pos ⟨by simp [hdk], hr⟩, hdk]
            unfold asRow
            rw [hgr d hdk]
          · rw [if_neg fun h => hloc h.2] at hq
            cases hq
            have hnr : ¬ Relabelled data d := fun h => hloc h.1
            refine ⟨?_, fun _ h => absurd h hnr⟩
            unfold rowAfter
            rw [if_neg fun h => hnr h.2]
        · rw [if_neg fun h => hdk h.1] at hq
          replace hq := Except.ok.inj hq
          subst hq
          refine ⟨?_, fun h => absurd h hdk⟩
          unfold rowAfter
          have : rowKey d ∈ pre ++ [k] ↔ rowKey d ∈ pre := by simp [hdk]
          simp only [this]
      constructor
      · have hF2 := hF
        rw [List.forall₂_map_left_iff] at hF2
        have := forall₂_map_eq' (forall₂_with_mem hF2) (p := fun d => (rowKey d, rowAfter data (pre ++ [k]) d)) (q := fun q => q) (by
          rintro d q ⟨hd, hq⟩; exact (key d hd q hq).1.symm)
        simpa using this.symm
      · intro d hd hdk hr
        obtain ⟨q, -, hq⟩ := forall₂_mem_left hF (List.mem_map.mpr ⟨d, hd, rfl⟩)
        refine ⟨?_, (key d hd q hq).2 hdk hr⟩
        rw [hgr d hdk]; omega
    · rw [if_neg hc] at h
      cases h
      have hno : ∀ d ∈ data, rowKey d = k → ¬ Relabelled data d := by
        intro d hd hdk hr
        apply hc
        refine ⟨by rw [← hgr d hdk]; exact hr.2.1, ?_⟩
        exact List.any_eq_true.mpr ⟨d, List.mem_filter.mpr ⟨hd, by simp [hdk]⟩, by simp [hr.1]⟩
      exact ⟨hsame hno, fun d hd hdk hr => absurd hr (hno d hd hdk)⟩

theorem relabel_inv {data out : List Dataset} (h : relabelGlobalToRow data = .ok out) :
    (out = data.map fun d => if Relabelled data d then asRow data d else d) ∧
    (∀ d ∈ data, Classified d) ∧ ∀ d ∈ data, Relabelled data d → CanRelabel data d := by
  unfold relabelGlobalToRow at h
  obtain ⟨st, hst, h⟩ := bind_eq_ok.mp h
  obtain ⟨st', hst', h⟩ := bind_eq_ok.mp h
  cases h
  obtain ⟨rfl, hc⟩ := withRowKey_mapE hst
  have hnd := groupBy_nodup (fun p : (String × List String) × Dataset => p.1) (data.map fun d => (rowKey d, d))
  have hkeys : ∀ d ∈ data, rowKey d ∈ (groupBy (fun p : (String × List String) × Dataset => p.1) (data.map fun d => (rowKey d, d))).map (·.1) := by
    intro d hd
    exact (groupBy_keys_mem _ _ _).mpr ⟨(rowKey d, d), List.mem_map.mpr ⟨d, hd, rfl⟩, rfl⟩
  have hinv := foldE_inv' (I := fun pre st => st = (data.map fun d => (rowKey d, rowAfter data pre d)) ∧
      ∀ d ∈ data, rowKey d ∈ pre → Relabelled data d → CanRelabel data d) hst' (by
    refine ⟨?_, fun d _ h => absurd h (by simp)⟩
    apply List.map_congr_left
    intro d _
    simp [rowAfter]) (by
    rintro pre k post s s' hl ⟨rfl, hprev⟩ hs
    have hk : k ∉ pre := by
      rw [hl] at hnd
      intro hmem
      exact (List.nodup_append.mp hnd).2.2 k hmem k (by simp) rfl
    obtain ⟨h1, h2⟩ := relabelGroup_step hk hs
    refine ⟨h1, fun d hd hdk hr => ?_⟩
    rcases List.mem_append.mp hdk with h3 | h3
    · exact hprev d hd h3 hr
    · exact h2 d hd (by simpa using h3) hr)
  obtain ⟨h1, h2⟩ := hinv
  refine ⟨?_, hc, fun d hd hr => h2 d hd (hkeys d hd) hr⟩
  rw [h1, List.map_map]
  apply List.map_congr_left
  intro d hd
  simp only [Function.comp]
  unfold rowAfter
  simp only [hkeys d hd, true_and]

/-! ## C38 -/

/-- C38: exactly the `GLO` datasets that share their activity with other datasets (and are not in a market
group's group) become `RoW`; their production volume becomes the global volume minus the regions' original
volumes, at least zero, with the old value kept; order and everything else stay the same. -/
theorem C38_relabel (data out : List Dataset) (h : relabelGlobalToRow data = .ok out) :
    out = data.map fun d => if Relabelled data d then asRow data d else d := (relabel_inv h).1

/-- C38: success means that no such group has a second `GLO` dataset. -/
theorem C38_single_global (data out : List Dataset) (h : relabelGlobalToRow data = .ok out) :
    ∀ d ∈ data, Relabelled data d → ((activityGroup data d).filter fun o => o.location == "GLO") = [d] := by
  intro d hd hr
  obtain ⟨h1, -⟩ := (relabel_inv h).2.2 d hd hr
  obtain ⟨x, hx⟩ := List.length_eq_one_iff.mp h1
  have : d ∈ (activityGroup data d).filter fun o => o.location == "GLO" := by
    refine List.mem_filter.mpr ⟨List.mem_filter.mpr ⟨hd, ?_⟩, by simp [hr.1]⟩
    exact decide_eq_true ⟨rfl, List.Perm.refl _⟩
  rw [hx, List.mem_singleton] at this
  rw [hx, this]

theorem refs_rest (v : ℚ) (l : List Exchange) :
    (l.map (restVolume v)).filter (fun e => e.type == .referenceProduct) =
      (l.filter fun e => e.type == .referenceProduct).map (restVolume v) := by
  rw [List.filter_map]
  congr 1
  apply List.filter_congr
  intro e _
  simp only [Function.comp, restVolume]
  split <;> simp_all

/-- C38: when the global volume covers the regions, the group total is the original global volume: the new
volume of the `RoW` dataset plus the regions' original volumes equals the old volume. Otherwise it is zero. -/
theorem C38_total_volume (data out : List Dataset) (h : relabelGlobalToRow data = .ok out) :
    ∀ d ∈ data, Relabelled data d → ∃ e p e' p', refs d = [e] ∧ e.pv = some p ∧
      refs (asRow data d) = [e'] ∧ e'.pv = some p' ∧ p'.globalAmount = some p.amount ∧ 0 ≤ p'.amount ∧
      (regionalSum (activityGroup data d) ≤ p.amount → p'.amount + regionalSum (activityGroup data d) = p.amount) ∧
      (p.amount ≤ regionalSum (activityGroup data d) → p'.amount = 0) := by
  intro d hd hr
  obtain ⟨-, e, p, he, hp⟩ := (relabel_inv h).2.2 d hd hr
  have hty : e.type = .referenceProduct := by
    have : e ∈ refs d := by rw [he]; simp
    simpa using (List.mem_filter.mp this).2
  refine ⟨e, p, restVolume (regionalSum (activityGroup data d)) e,
    { p with globalAmount := some p.amount, amount := max (p.amount - regionalSum (activityGroup data d)) 0 }, he, hp, ?_, ?_, rfl, le_max_right _ _, ?_, ?_⟩
  · change ((d.exchanges.map _).filter _) = _
    rw [refs_rest]
    change (refs d).map _ = _
    rw [he]; rfl
  · unfold restVolume
    rw [if_pos hty, hp]; rfl
  · intro hle
    simp only
    rw [max_eq_left (by linarith)]; ring
  · intro hle
    simp only
    rw [max_eq_right (by linarith)]

theorem liveProducts_asRow (data : List Dataset) (d : Dataset) : liveProducts (asRow data d) = liveProducts d := by
  unfold liveProducts production asRow
  simp only
  rw [List.filter_filter, List.filter_filter, List.filter_map, List.map_map]
  have : ∀ (v : ℚ) (e : Exchange), (restVolume v e).name = e.name ∧ (restVolume v e).type = e.type ∧ (restVolume v e).cls = e.cls ∧ (restVolume v e).amount = e.amount := by
    intro v e; unfold restVolume; split <;> simp
  have hfil : List.filter ((fun a : Exchange => a.amount != 0 && isProduction a) ∘ restVolume (regionalSum (activityGroup data d))) d.exchanges =
      List.filter (fun a => a.amount != 0 && isProduction a) d.exchanges := by
    apply List.filter_congr
    intro e _
    obtain ⟨-, h2, h3, h4⟩ := this (regionalSum (activityGroup data d)) e
    simp only [Function.comp, isProduction, h2, h3, h4]
  rw [hfil]
  apply List.map_congr_left
  intro e _
  exact (this _ e).1

/-- C38: a second run changes nothing. -/
theorem C38_idempotent (data out : List Dataset) (h : relabelGlobalToRow data = .ok out) :
    relabelGlobalToRow out = .ok out := by
  obtain ⟨hout, hc, -⟩ := relabel_inv h
  have hkey : ∀ d, rowKey (if Relabelled data d then asRow data d else d) = rowKey d := by
    intro d
    split
    · unfold rowKey; rw [liveProducts_asRow]; rfl
    · rfl
  have hcl : ∀ d ∈ out, Classified d := by
    rw [hout]
    intro d hd
    obtain ⟨d₀, h0, rfl⟩ := List.mem_map.mp hd
    split
    · intro e he
      obtain ⟨e₀, he0, rfl⟩ := List.mem_map.mp he
      have := hc d₀ h0 e₀ he0
      unfold restVolume
      split <;> exact this
    · exact hc d₀ h0
  have hst : mapE withRowKey out = .ok (out.map fun d => (rowKey d, d)) := by
    rw [← mapE_pure]
    apply mapE_congr
    intro d hd
    unfold withRowKey
    rw [rowGrouper_of (hcl d hd)]; rfl
  unfold relabelGlobalToRow
  rw [hst]
  simp only [ebind_ok]
  have hno : ∀ k, relabelGroup (out.map fun d => (rowKey d, d)) k = .ok (out.map fun d => (rowKey d, d)) := by
    intro k
    have hgroup : (((out.map fun d => (rowKey d, d)).filter fun p => decide (p.1 = k)).map (·.2)) =
        (data.filter fun o => decide (rowKey o = k)).map fun d => if Relabelled data d then asRow data d else d := by
      rw [List.filter_map, List.map_map, hout, List.filter_map, List.map_map]
      simp only [Function.comp_def, hkey]
    unfold relabelGroup
    simp only [hgroup]
    split
    · rfl
    · next hmg =>
      split
      · next hcond =>
        exfalso
        obtain ⟨hlen, hany⟩ := hcond
        obtain ⟨x, hx, hxl⟩ := List.any_eq_true.mp hany
        obtain ⟨d, hd, rfl⟩ := List.mem_map.mp hx
        have hdk : rowKey d = k := by simpa using (List.mem_filter.mp hd).2
        have hgr : activityGroup data d = data.filter fun o => decide (rowKey o = k) := by rw [activityGroup_eq, hdk]
        by_cases hr : Relabelled data d
        · rw [if_pos hr] at hxl
          simp [asRow] at hxl
        · rw [if_neg hr] at hxl
          apply hr
          refine ⟨by simpa using hxl, by rw [hgr]; simpa using hlen, ?_⟩
          rw [hgr]
          intro hm
          apply hmg
          rw [← hm]
          rcases (data.filter fun o => decide (rowKey o = k)) with _ | ⟨a, l⟩
          · rfl
          · simp only [List.map_cons, List.head?_cons, Option.map_some]
            split <;> rfl
      · rfl
  have hfold : ∀ ks : List (String × List String), foldE relabelGroup (out.map fun d => (rowKey d, d)) ks = .ok (out.map fun d => (rowKey d, d)) := by
    intro ks
    induction ks with
    | nil => rfl
    | cons k ks ih => exact bind_eq_ok.mpr ⟨_, hno k, ih⟩
  rw [hfold]
  simp only [ebind_ok, List.map_map]
  change Except.ok _ = Except.ok _
  congr 1
  conv_rhs => rw [← List.map_id out]
  rfl

/-- C38: the outcome: with classified byproducts it succeeds when every dataset to relabel is the only `GLO`
dataset of its group and has one reference product with a volume. When only the first condition fails, the
exception is `MultipleGlobalDatasets`. -/
theorem C38_outcome (data : List Dataset) (hc : ∀ d ∈ data, Classified d)
    (hrp : ∀ d ∈ data, Relabelled data d → ∃ e p, refs d = [e] ∧ e.pv = some p) :
    ((∀ d ∈ data, Relabelled data d → ((activityGroup data d).filter fun o => o.location == "GLO").length = 1) →
      ∃ out, relabelGlobalToRow data = .ok out) ∧
    ((∃ d ∈ data, Relabelled data d ∧ 2 ≤ ((activityGroup data d).filter fun o => o.location == "GLO").length) →
      relabelGlobalToRow data = .error .multipleGlobalDatasets) := by
  have hst : mapE withRowKey data = .ok (data.map fun d => (rowKey d, d)) := by
    rw [← mapE_pure]
    apply mapE_congr
    intro d hd
    unfold withRowKey
    rw [rowGrouper_of (hc d hd)]; rfl
  have herr : ∀ err, relabelGlobalToRow data = .error err → err = .multipleGlobalDatasets ∧
      ∃ d ∈ data, Relabelled data d ∧ 2 ≤ ((activityGroup data d).filter fun o => o.location == "GLO").length := by
    intro err h
    unfold relabelGlobalToRow at h
    rw [hst] at h
    simp only [ebind_ok] at h
    rcases bind_eq_error.mp h with h | ⟨_, -, h⟩
    swap
    · cases h
    have hnd := groupBy_nodup (fun p : (String × List String) × Dataset => p.1) (data.map fun d => (rowKey d, d))
    have main : ∀ (rest pre : List (String × List String)), (pre ++ rest).Nodup →
        foldE relabelGroup (data.map fun d => (rowKey d, rowAfter data pre d)) rest = .error err →
        ∃ pre k, k ∉ pre ∧ relabelGroup (data.map fun d => (rowKey d, rowAfter data pre d)) k = .error err := by
      intro rest
      induction rest with
      | nil => intro pre _ h; cases h
      | cons k rest ih =>
        intro pre hnd h
        have hk : k ∉ pre := fun hm => (List.nodup_append.mp hnd).2.2 k hm k (by simp) rfl
        rcases bind_eq_error.mp h with h | ⟨s', hs', h⟩
        · exact ⟨pre, k, hk, h⟩
        · obtain ⟨rfl, -⟩ := relabelGroup_step hk hs'
          exact ih (pre ++ [k]) (by simpa using hnd) h
    obtain ⟨pre, k, hk, hg⟩ := main _ [] (by simpa using hnd) (by
      have : (data.map fun d => (rowKey d, rowAfter data [] d)) = data.map fun d => (rowKey d, d) := by
        apply List.map_congr_left; intro d _; simp [rowAfter]
      rw [this]; exact h)
    have hgroup : (((data.map fun d => (rowKey d, rowAfter data pre d)).filter fun p => decide (p.1 = k)).map (·.2)) =
        data.filter fun o => decide (rowKey o = k) := by
      rw [List.filter_map, List.map_map]
      conv_rhs => rw [← List.map_id (data.filter fun o => decide (rowKey o = k))]
      apply List.map_congr_left
      intro d hd
      have hdk : rowKey d = k := by simpa using (List.mem_filter.mp hd).2
      simp only [Function.comp, id]
      unfold rowAfter
      rw [if_neg]
      rintro ⟨h1, -⟩
      exact hk (hdk ▸ h1)
    unfold relabelGroup at hg
    simp only [hgroup] at hg
    split at hg
    · cases hg
    · next hmg =>
      split at hg
      · next hcond =>
        obtain ⟨d, hd, hl⟩ := List.any_eq_true.mp hcond.2
        obtain ⟨hdd, hdk⟩ := List.mem_filter.mp hd
        have hdk : rowKey d = k := by simpa using hdk
        have hgr : activityGroup data d = data.filter fun o => decide (rowKey o = k) := by rw [activityGroup_eq, hdk]
        have hr : Relabelled data d := ⟨by simpa using hl, by rw [hgr]; exact hcond.1, by rw [hgr]; exact hmg⟩
        rcases bind_eq_error.mp hg with hg | ⟨u, hu, hg⟩
        · unfold checkSingleGlobalDataset at hg
          split at hg
          · next hlen =>
            cases hg
            refine ⟨rfl, d, hdd, hr, ?_⟩
            rw [hgr]; exact hlen
          · cases hg
        · exfalso
          obtain ⟨q, hq, hg⟩ := mapE_error hg
          obtain ⟨d', hd', rfl⟩ := List.mem_map.mp hq
          unfold relabelMember at hg
          split at hg
          · next hcase =>
            rcases bind_eq_error.mp hg with hg | ⟨_, -, hg⟩
            swap
            · cases hg
            have hdk' : rowKey d' = k := hcase.1
            have hpre : rowAfter data pre d' = d' := by
              unfold rowAfter; rw [if_neg]; rintro ⟨h1, -⟩; exact hk (hdk' ▸ h1)
            simp only [hpre] at hg hcase
            have hgr' : activityGroup data d' = data.filter fun o => decide (rowKey o = k) := by rw [activityGroup_eq, hdk']
            obtain ⟨e, p, he, hp⟩ := hrp d' hd' ⟨hcase.2, by rw [hgr']; exact hcond.1, by rw [hgr']; exact hmg⟩
            unfold relabelGlobal at hg
            rw [getSingle_ok.mpr he] at hg
            simp only [ebind_ok, hp, getKey] at hg
            cases hg
          · cases hg
      · cases hg
  constructor
  · intro hone
    rcases hres : relabelGlobalToRow data with err | out
    · obtain ⟨-, d, hd, hr, h2⟩ := herr err hres
      have := hone d hd hr
      omega
    · exact ⟨out, rfl⟩
  · rintro ⟨d, hd, hr, h2⟩
    rcases hres : relabelGlobalToRow data with err | out
    · rw [(herr err hres).1]
    · have := ((relabel_inv hres).2.2 d hd hr).1
      omega

/-- A global dataset, a regional one, and an unrelated global one. -/
def exampleRow : List Dataset :=
  [{ name := "a", location := "GLO", exchanges := [{ name := "p", type := .referenceProduct, amount := 1, pv := some { amount := 100 } }] }, { name := "a", location := "CH", exchanges := [{ name := "p", type := .referenceProduct, amount := 1, pv := some { amount := 30, originalAmount := some 40 } }] }, { name := "b", location := "GLO", exchanges := [{ name := "q", type := .referenceProduct, amount := 1, pv := some { amount := 5 } }] }]

example : relabelGlobalToRow exampleRow = .ok [{ name := "a", location := "RoW", exchanges := [{ name := "p", type := .referenceProduct, amount := 1, pv := some { amount := 60, globalAmount := some 100 } }] }, { name := "a", location := "CH", exchanges := [{ name := "p", type := .referenceProduct, amount := 1, pv := some { amount := 30, originalAmount := some 40 } }] }, { name := "b", location := "GLO", exchanges := [{ name := "q", type := .referenceProduct, amount := 1, pv := some { amount := 5 } }] }] := by
  decide +kernel
example : relabelGlobalToRow (exampleRow ++ [{ name := "a", location := "GLO", exchanges := [{ name := "p", type := .referenceProduct, amount := 1, pv := some { amount := 1 } }] }]) = .error .multipleGlobalDatasets := by
  decide +kernel

/-! ## C51 -/

namespace Spec

/-- The datasets of one kind with the same reference product. -/
def productGroup (kind : DsType) (data : List Dataset) (d : Dataset) : List Dataset :=
  data.filter fun o => decide (o.type = kind ∧ o.refProduct = d.refProduct)

/-- What gets deleted: the `RoW` dataset of a product (the first if there are several) that has other datasets of
the kind, when its original volume is zero or unknown. -/
def Superfluous (kind : DsType) (data : List Dataset) (d : Dataset) : Prop :=
  d.type = kind ∧ d.location = "RoW" ∧ originalVolume d = 0 ∧ 2 ≤ (productGroup kind data d).length ∧
  ((productGroup kind data d).filter fun o => o.location == "RoW").head? = some d

instance (kind : DsType) (data : List Dataset) (d : Dataset) : Decidable (Superfluous kind data d) := by
  unfold Superfluous; infer_instance

end Spec

theorem withRefProduct_mapE {l : List Dataset} {r : List (String × Dataset)} (h : mapE withRefProduct l = .ok r) :
    r = l.map (fun d => (d.refProduct.getD "", d)) ∧ ∀ d ∈ l, d.refProduct.isSome := by
  induction l generalizing r with
  | nil => cases h; simp
  | cons a l ih =>
    obtain ⟨b, h1, h⟩ := bind_eq_ok.mp h
    obtain ⟨bs, h2, h⟩ := bind_eq_ok.mp h
    cases h
    obtain ⟨rp, h3, h1⟩ := bind_eq_ok.mp h1
    cases h1
    have h3 := getKey_eq_ok.mp h3
    obtain ⟨rfl, h4⟩ := ih h2
    refine ⟨by simp [h3], ?_⟩
    intro d hd
    rcases List.mem_cons.mp hd with rfl | hd
    · simp [h3]
    · exact h4 d hd

theorem purgedOf_some {g : List Dataset} {d : Dataset} :
    purgedOf g = some d ↔ 2 ≤ g.length ∧ (g.filter fun o => o.location == "RoW").head? = some d ∧ originalVolume d = 0 := by
  unfold purgedOf
  rw [List.head?_filter]
  by_cases hl : g.length < 2
  · rw [if_pos hl]
    constructor
    · intro h; cases h
    · intro h; omega
  · rw [if_neg hl]
    generalize g.find? (fun ds => ds.location == "RoW") = f
    rcases f with _ | row
    · simp
    · simp only [originalVolume_eq]
      by_cases h0 : originalVolume row = 0
      · rw [if_pos h0]
        constructor
        · intro h; cases h; exact ⟨by omega, rfl, h0⟩
        · rintro ⟨-, h, -⟩; exact h
      · rw [if_neg h0]
        constructor
        · intro h; cases h
        · rintro ⟨-, h, h'⟩; cases h; exact absurd h' h0

/-- C51: exactly the superfluous `RoW` datasets are removed; all others stay, in order. -/
theorem C51_exact (kind : DsType) (data out : List Dataset) (h : deleteGlobalZeroPv kind data = .ok out) :
    out = data.filter fun d => decide (¬ Superfluous kind data d) := by
  unfold deleteGlobalZeroPv at h
  obtain ⟨l, hl, h⟩ := bind_eq_ok.mp h
  cases h
  obtain ⟨rfl, hsome⟩ := withRefProduct_mapE hl
  apply List.filter_congr
  intro d hd
  have hgroup : ∀ d : Dataset, d.refProduct.isSome → ((((data.filter fun ds => ds.type == kind).map fun d => (d.refProduct.getD "", d)).filter fun a => decide (a.1 = d.refProduct.getD "")).map (·.2)) = productGroup kind data d := by
    intro d hds
    rw [List.filter_map, List.map_map]
    have : ((fun x : String × Dataset => x.2) ∘ fun d : Dataset => (d.refProduct.getD "", d)) = id := rfl
    rw [this, List.map_id, List.filter_filter]
    unfold productGroup
    apply List.filter_congr
    intro o ho
    simp only [Function.comp]
    by_cases hk : o.type = kind
    · have hos := hsome o (List.mem_filter.mpr ⟨ho, by simp [hk]⟩)
      obtain ⟨x, hx⟩ := Option.isSome_iff_exists.mp hos
      obtain ⟨y, hy⟩ := Option.isSome_iff_exists.mp hds
      simp [hk, hx, hy]
    · simp [hk]
  rw [Bool.eq_iff_iff]
  simp only [Bool.not_eq_true', List.contains_eq_mem, decide_eq_false_iff_not, decide_eq_true_eq]
  apply not_congr
  rw [List.mem_filterMap]
  constructor
  · rintro ⟨g, hg, hp⟩
    obtain ⟨⟨k, g'⟩, hg', rfl⟩ := List.mem_map.mp hg
    obtain ⟨h1, h2, h3⟩ := purgedOf_some.mp hp
    have hmem : d ∈ g'.map (·.2) := by
      have := List.mem_of_mem_head? h2
      exact (List.mem_filter.mp this).1
    have hg'' := groupBy_mem hg'
    obtain ⟨p, hp1, hp2⟩ := List.mem_map.mp hmem
    rw [hg''] at hp1
    obtain ⟨hp3, hp4⟩ := List.mem_filter.mp hp1
    obtain ⟨d', hd', rfl⟩ := List.mem_map.mp hp3
    simp only at hp2
    subst hp2
    have hty : d'.type = kind := by simpa using (List.mem_filter.mp hd').2
    have hk : d'.refProduct.getD "" = k := by simpa using hp4
    have := hgroup d' (hsome d' hd')
    rw [hk] at this
    simp only [hg''] at h1 h2
    rw [this] at h1 h2
    have hloc := List.mem_of_mem_head? h2
    exact ⟨hty, by simpa using (List.mem_filter.mp hloc).2, h3, h1, h2⟩
  · rintro ⟨hty, hloc, h0, hlen, hhead⟩
    have hdl : d ∈ data.filter fun ds => ds.type == kind := List.mem_filter.mpr ⟨hd, by simp [hty]⟩
    refine ⟨productGroup kind data d, ?_, purgedOf_some.mpr ⟨hlen, hhead, h0⟩⟩
    have hkm := (groupBy_keys_mem (fun p : String × Dataset => p.1) ((data.filter fun ds => ds.type == kind).map fun d => (d.refProduct.getD "", d)) (d.refProduct.getD "")).mpr
      ⟨_, List.mem_map.mpr ⟨d, hdl, rfl⟩, rfl⟩
    obtain ⟨⟨k, g⟩, hkg, hk⟩ := List.mem_map.mp hkm
    simp only at hk
    subst hk
    refine List.mem_map.mpr ⟨_, hkg, ?_⟩
    have := groupBy_mem hkg
    simp only [this]
    exact hgroup d (hsome d hdl)

/-- C51: it fails (with a `KeyError`) only if a dataset of the kind has no reference product label. -/
theorem C51_total (kind : DsType) (data : List Dataset) (h : ∀ d ∈ data, d.type = kind → d.refProduct.isSome) :
    ∃ out, deleteGlobalZeroPv kind data = .ok out := by
  unfold deleteGlobalZeroPv
  obtain ⟨l, hl⟩ := mapE_ok_of_forall (f := withRefProduct) (l := data.filter fun ds => ds.type == kind) (by
    intro d hd
    obtain ⟨hd, hk⟩ := List.mem_filter.mp hd
    obtain ⟨x, hx⟩ := Option.isSome_iff_exists.mp (h d hd (by simpa using hk))
    exact ⟨(x, d), by unfold withRefProduct; rw [hx]; rfl⟩)
  rw [hl]
  exact ⟨_, rfl⟩

/-- C51: what is removed is a `RoW` dataset of the kind, with zero or unknown original volume, whose product has
another dataset of that kind in the list (at another position). -/
theorem C51_removed (kind : DsType) (data out : List Dataset) (h : deleteGlobalZeroPv kind data = .ok out) :
    out.Sublist data ∧ ∀ d ∈ data, d ∉ out →
      d.type = kind ∧ d.location = "RoW" ∧ originalVolume d = 0 ∧ 2 ≤ (productGroup kind data d).length := by
  have he := C51_exact kind data out h
  refine ⟨he ▸ List.filter_sublist, ?_⟩
  intro d hd hn
  by_contra hne
  apply hn
  rw [he]
  refine List.mem_filter.mpr ⟨hd, decide_eq_true ?_⟩
  rintro ⟨h1, h2, h3, h4, -⟩
  exact hne ⟨h1, h2, h3, h4⟩

/-- C51: every product keeps a dataset of the kind, if no two datasets are equal. -/
theorem C51_one_left_partial (kind : DsType) (data out : List Dataset) (hn : data.Nodup)
    (h : deleteGlobalZeroPv kind data = .ok out) :
    ∀ d ∈ data, d.type = kind → ∃ d' ∈ out, d'.type = kind ∧ d'.refProduct = d.refProduct := by
  intro d hd hk
  have he := C51_exact kind data out h
  by_cases hs : Superfluous kind data d
  · obtain ⟨-, -, -, hlen, hhead⟩ := hs
    have hgn : (productGroup kind data d).Nodup := hn.filter _
    obtain ⟨o, ho, hod⟩ : ∃ o ∈ productGroup kind data d, o ≠ d := by
      by_contra hne
      push Not at hne
      rcases hg : productGroup kind data d with _ | ⟨a, _ | ⟨b, l⟩⟩
      · rw [hg] at hlen; simp at hlen
      · rw [hg] at hlen; simp at hlen
      · rw [hg] at hne hgn
        have h1 := hne a (by simp)
        have h2 := hne b (by simp)
        rw [h1, h2] at hgn
        simp at hgn
    obtain ⟨ho1, ho2⟩ := List.mem_filter.mp ho
    obtain ⟨ho2, ho3⟩ := of_decide_eq_true ho2
    refine ⟨o, ?_, ho2, ho3⟩
    rw [he]
    refine List.mem_filter.mpr ⟨ho1, decide_eq_true ?_⟩
    rintro ⟨-, -, -, -, hh⟩
    have : productGroup kind data o = productGroup kind data d := by unfold productGroup; rw [ho3]
    rw [this, hhead] at hh
    exact hod (Option.some.inj hh).symm
  · exact ⟨d, by rw [he]; exact List.mem_filter.mpr ⟨hd, decide_eq_true hs⟩, hk, rfl⟩

/-- C51 fails for lists with equal datasets: the comparison is by value, so all copies go. -/
theorem C51_duplicates_all_removed : ∃ (d : Dataset), d.type = .market ∧
    deleteGlobalZeroPv .market [d, d] = .ok [] :=
  ⟨{ name := "m", location := "RoW", type := .market, refProduct := some "p", exchanges := [] }, rfl, by decide +kernel⟩

/-- A zero-volume `RoW` market next to a regional one. -/
def exampleZeroRow : List Dataset :=
  [{ name := "m", location := "RoW", type := .market, refProduct := some "p", exchanges := [{ name := "p", type := .referenceProduct, amount := 1, pv := some { amount := 0 } }] }, { name := "m", location := "CH", type := .market, refProduct := some "p", exchanges := [{ name := "p", type := .referenceProduct, amount := 1, pv := some { amount := 0 } }] }, { name := "n", location := "RoW", type := .market, refProduct := some "q", exchanges := [{ name := "q", type := .referenceProduct, amount := 1, pv := some { amount := 0 } }] }]

example : exampleZeroRow.Nodup := by decide +kernel
example : deleteGlobalZeroPv .market exampleZeroRow = .ok (exampleZeroRow.drop 1) := by decide +kernel

/-! ## Dropping empty `RoW` markets -/

/-- `drop_zero_pv_row_datasets` removes exactly the `RoW` markets whose volume is known to be zero. -/
theorem C73_drop_zero_row (data : List Dataset) :
    (dropZeroPvRowDatasets data).Sublist data ∧
    ∀ d, d ∈ dropZeroPvRowDatasets data ↔ d ∈ data ∧
      ¬ (d.location = "RoW" ∧ d.type = .market ∧ ∃ e p, refs d = [e] ∧ e.pv = some p ∧ p.amount = 0) := by
  refine ⟨List.filter_sublist, fun d => ?_⟩
  unfold dropZeroPvRowDatasets
  rw [List.mem_filter]
  apply and_congr_right
  intro _
  have hpv : productionVolume d = some 0 ↔ ∃ e p, refs d = [e] ∧ e.pv = some p ∧ p.amount = 0 := by
    unfold productionVolume
    have hr : referenceProducts d = refs d := rfl
    rw [hr]
    rcases refs d with _ | ⟨e, _ | ⟨e', l⟩⟩
    · simp
    · simp only [Option.map_eq_some_iff]
      constructor
      · rintro ⟨p, hp, h0⟩; exact ⟨e, p, rfl, hp, h0⟩
      · rintro ⟨e₁, p, h1, hp, h0⟩; cases h1; exact ⟨p, hp, h0⟩
    · simp
  rw [← hpv]
  by_cases h1 : d.location = "RoW" <;> by_cases h2 : d.type = .market <;> by_cases h3 : productionVolume d = some 0 <;> simp [h1, h2, h3]

example : dropZeroPvRowDatasets exampleZeroRow = [exampleZeroRow[1]] := by decide +kernel

end Ocelot
