import Verif.Model.DetailedLog
import Verif.Props.ReportRows
import Verif.Props.RecalculateAll
import Verif.Props.ActivityLinks
import Verif.Props.MarketAllocation
import Verif.Props.ConsumerLinking
import Verif.Proofs.OrderVolumes

/-!
# C133: the detailed log tells what happened to the datasets

docs/writing-transformations.rst:116: the detailed log "can be used afterwards to debug exactly what happened to a dataset". Each theorem says that the function does the same as its model
without the log, and which lines it writes, in terms of the data before and after.
-/

namespace Ocelot
open Spec

namespace Spec

/-- The call does the same as without the log, and the lines are as described. -/
def Traces {β : Type} (call : Except Err (List Line × β)) (effect : Except Err β) (described : List Line → β → Prop) : Prop :=
  call.map (·.2) = effect ∧ ∀ lines out, call = .ok (lines, out) → described lines out

/-- What has been subtracted from the products of a dataset in all. -/
def subtractedOf (d : Dataset) : ℚ := (d.exchanges.map fun e => (e.pv.bind (·.subtracted)).getD 0).sum

/-- The amount that a line says to have subtracted from the dataset with the given id. -/
def saysSubtracted (id : String) (l : Line) : ℚ :=
  match l.message with
  | .subtractLink amount _ _ _ => if l.id = id then amount else 0
  | _ => 0

/-- The line for a hard link: about the dataset that is linked to, with the volume that is used (the amount of the link scaled to the production of the linking dataset) and the volume of the
product; for a link to the dataset itself, that it is ignored. -/
def linkLines (data : List Dataset) (ds : Dataset) (e : Exchange) : List Line :=
  match e.activityLink with
  | none => []
  | some l =>
    if l = "" then []
    else if l = ds.id then [⟨.selfLink e.amount ((productionVolume ds).getD 0), "add_hard_linked_production_volumes", ds.id, basename ds.filepath, ds.code⟩]
    else (data.filter fun t => t.id == l).flatMap fun t => ((production t).filter fun x => x.name == e.name).map fun x =>
      ⟨.subtractLink (e.amount * ratioOf ds) (vol x) ds.name ds.location, "add_hard_linked_production_volumes", t.id, basename t.filepath, t.code⟩

/-- The line for a dataset whose location has changed: its volume now, its volume before and the original volumes of the other datasets of the activity. -/
def rowLines (data : List Dataset) (p : Dataset × Dataset) : List Line :=
  if p.2.location = p.1.location then []
  else (refs p.2).map fun e => ⟨.restOfWorld p.1.name (vol e) e.unit ((productionVolume p.1).getD 0) (regionalSum (activityGroup data p.1)), "relabel_global_to_row", p.1.id, basename p.1.filepath, p.1.code⟩

end Spec

/-! ## Loops that log -/

theorem mapD_cons_ok {α β : Type} {f : α → Except Err (List Line × β)} {a : α} {l : List α} {r : List Line × List β} (h : mapD f (a :: l) = .ok r) :
    ∃ x y, f a = .ok x ∧ mapD f l = .ok y ∧ r = (x.1 ++ y.1, x.2 :: y.2) := by
  simp only [mapD] at h
  obtain ⟨x, h1, h⟩ := bind_eq_ok.mp h
  obtain ⟨y, h2, h⟩ := bind_eq_ok.mp h
  exact ⟨x, y, h1, h2, (Except.ok.inj h).symm⟩

/-- The loop without the log. -/
theorem mapD_data {α β : Type} {f : α → Except Err (List Line × β)} {g : α → Except Err β} (hfg : ∀ a, (f a).map (·.2) = g a) (l : List α) :
    (mapD f l).map (·.2) = mapE g l := by
  induction l with
  | nil => rfl
  | cons a l ih =>
    simp only [mapD, mapE, ← hfg a, ← ih]
    cases f a with
    | error e => rfl
    | ok x => cases mapD f l <;> rfl

/-- The lines, element by element. -/
theorem mapD_lines {α β : Type} {f : α → Except Err (List Line × β)} {G : α → β → List Line} {l : List α} (hf : ∀ a ∈ l, ∀ x b, f a = .ok (x, b) → x = G a b)
    {lines : List Line} {out : List β} (h : mapD f l = .ok (lines, out)) : out.length = l.length ∧ lines = (l.zip out).flatMap fun p => G p.1 p.2 := by
  induction l generalizing lines out with
  | nil => cases h; exact ⟨rfl, rfl⟩
  | cons a l ih =>
    obtain ⟨x, y, h1, h2, h3⟩ := mapD_cons_ok h
    obtain ⟨rfl, rfl⟩ := Prod.mk.inj h3
    obtain ⟨i1, i2⟩ := ih (fun a ha => hf a (List.mem_cons_of_mem _ ha)) (lines := y.1) (out := y.2) h2
    refine ⟨by simp [i1], ?_⟩
    rw [List.zip_cons_cons, List.flatMap_cons, ← i2, ← hf a List.mem_cons_self x.1 x.2 h1]

theorem mapD_lines' {α β : Type} {f : α → Except Err (List Line × β)} {G : α → List Line} {l : List α} (hf : ∀ a ∈ l, ∀ x b, f a = .ok (x, b) → x = G a)
    {lines : List Line} {out : List β} (h : mapD f l = .ok (lines, out)) : lines = l.flatMap G := by
  induction l generalizing lines out with
  | nil => cases h; rfl
  | cons a l ih =>
    obtain ⟨x, y, h1, h2, h3⟩ := mapD_cons_ok h
    obtain ⟨rfl, rfl⟩ := Prod.mk.inj h3
    rw [List.flatMap_cons, ← ih (fun a ha => hf a (List.mem_cons_of_mem _ ha)) (lines := y.1) (out := y.2) h2, ← hf a List.mem_cons_self x.1 x.2 h1]

theorem foldD_data {α σ : Type} {f : List Line × σ → α → Except Err (List Line × σ)} {g : σ → α → Except Err σ} (hfg : ∀ st a, (f st a).map (·.2) = g st.2 a)
    (st : List Line × σ) (l : List α) : (foldE f st l).map (·.2) = foldE g st.2 l := by
  induction l generalizing st with
  | nil => rfl
  | cons a l ih =>
    simp only [foldE, ← hfg]
    cases f st a with
    | error e => rfl
    | ok st' => exact ih st'

theorem snd_ok {β : Type} {x : Except Err (List Line × β)} {y : Except Err β} (h : x.map (·.2) = y) {l : List Line} {a : β} (hx : x = .ok (l, a)) : y = .ok a := by
  rw [← h, hx]; rfl

/-! ## Hard links -/

theorem linkLine_of {ds : Dataset} {e : Exchange} {t t' : Dataset} (h : addToTarget e.name e.amount (getBiggestPvRatio ds) t = .ok t') :
    ∃ x, ((production t).filter fun x => x.name == e.name) = [x] ∧
      linkLine ds e t = .ok (formatLine "add_hard_linked_production_volumes" t (.subtractLink (e.amount * ratioOf ds) (vol x) ds.name ds.location)) := by
  obtain ⟨s, x, hs, hc, hx, hpv, -⟩ := addToTarget_inv h
  refine ⟨x, hx, ?_⟩
  obtain ⟨p, hp⟩ := Option.ne_none_iff_exists'.mp hpv
  unfold linkLine
  rw [productionNamed_ok _ hc, hx]
  simp only [ebind_ok, hs, hp, getKey_some, epure, ratioOf, vol, Option.map_some, Option.getD_some]

theorem hardLinkStepD_data (ds : Dataset) (st : List Line × List Dataset) (e : Exchange) : (hardLinkStepD ds st e).map (·.2) = hardLinkStep ds st.2 e := by
  unfold hardLinkStepD hardLinkStep
  cases e.activityLink with
  | none => rfl
  | some l =>
    simp only
    by_cases h0 : l = ""
    · rw [if_pos h0, if_pos h0]; rfl
    rw [if_neg h0, if_neg h0]
    by_cases h1 : l = ds.id
    · rw [if_pos h1, if_pos h1]; rfl
    rw [if_neg h1, if_neg h1]
    cases hm : modifyLast l (addToTarget e.name e.amount (getBiggestPvRatio ds)) st.2 with
    | error x => rfl
    | ok st' =>
      obtain ⟨t, t', ht, hadd⟩ := modifyLast_find hm
      obtain ⟨x, -, hline⟩ := linkLine_of hadd
      simp only [ebind_ok, ht, getKey_some, hline]
      rfl

theorem find_rev {l : List Dataset} (hn : (l.map (·.id)).Nodup) {i : String} {t : Dataset} (h : l.reverse.find? (fun d => d.id == i) = some t) :
    (l.filter fun d => d.id == i) = [t] := by
  have hmem : t ∈ l := List.mem_reverse.mp (List.mem_of_find?_eq_some h)
  have hid : t.id = i := by simpa using List.find?_some h
  obtain ⟨a, b, rfl⟩ := List.append_of_mem hmem
  rw [List.map_append, List.map_cons] at hn
  have ha : ∀ x ∈ a, ¬ x.id = i := fun x hx hxi =>
    (List.nodup_append.mp hn).2.2 x.id (List.mem_map.mpr ⟨x, hx, rfl⟩) t.id (by simp) (by rw [hid, hxi])
  have hb : ∀ x ∈ b, ¬ x.id = i := fun x hx hxi =>
    (List.nodup_cons.mp (List.nodup_append.mp hn).2.1).1 (List.mem_map.mpr ⟨x, hx, by rw [hid, hxi]⟩)
  rw [List.filter_append, List.filter_cons, List.filter_eq_nil_iff.mpr (fun x hx => by simpa using ha x hx), List.filter_eq_nil_iff.mpr (fun x hx => by simpa using hb x hx)]
  simp [hid]

theorem vol_applied (ws : List Contribution) (i : String) (x : Exchange) : vol (appliedExc ws i x) = vol x := by
  unfold vol appliedExc
  split
  · cases x.pv <;> rfl
  · rfl

theorem hardLinkStepD_lines {data : List Dataset} (hnd : (data.map (·.id)).Nodup) {ws : List Contribution} {ds : Dataset} {e : Exchange} {lines lines' : List Line} {st' : List Dataset}
    (h : hardLinkStepD ds (lines, data.map (appliedDs ws)) e = .ok (lines', st')) : lines' = lines ++ linkLines data ds e := by
  unfold hardLinkStepD at h
  unfold linkLines
  cases hl : e.activityLink with
  | none =>
    rw [hl] at h
    obtain ⟨rfl, -⟩ := Prod.mk.inj (Except.ok.inj h); simp
  | some l =>
    rw [hl] at h
    simp only at h ⊢
    by_cases h0 : l = ""
    · rw [if_pos h0] at h
      obtain ⟨rfl, -⟩ := Prod.mk.inj (Except.ok.inj h); simp [h0]
    rw [if_neg h0] at h ⊢
    by_cases h1 : l = ds.id
    · rw [if_pos h1] at h ⊢
      obtain ⟨rfl, -⟩ := Prod.mk.inj (Except.ok.inj h); rfl
    rw [if_neg h1] at h ⊢
    obtain ⟨next, hm, h⟩ := bind_eq_ok.mp h
    obtain ⟨t, ht, h⟩ := bind_eq_ok.mp h
    obtain ⟨t1, t', ht1, hadd⟩ := modifyLast_find hm
    have ht := getKey_eq_ok.mp ht
    obtain rfl : t1 = t := Option.some.inj (ht1.symm.trans ht)
    obtain ⟨x, hx, hline⟩ := linkLine_of hadd
    rw [hline] at h
    obtain ⟨rfl, -⟩ := Prod.mk.inj (Except.ok.inj h)
    congr 1
    have hf := find_rev (by rw [List.map_map]; exact hnd) ht
    rw [List.filter_map] at hf
    obtain ⟨t0, ht0, hap⟩ := List.map_eq_singleton_iff.mp hf
    have hp : (fun d : Dataset => d.id == l) ∘ appliedDs ws = fun d => d.id == l := rfl
    rw [hp] at ht0
    rw [ht0, List.flatMap_singleton]
    rw [← hap, production_applied] at hx
    obtain ⟨x0, hx0, hxe⟩ := List.map_eq_singleton_iff.mp hx
    rw [hx0, ← hap, ← hxe, vol_applied]
    rfl

theorem sum_updated (p : Exchange → Bool) (v : ℚ) (l : List Exchange) (h : ∀ x ∈ l.filter p, x.pv ≠ none) :
    ((l.map fun x => if p x then { x with pv := x.pv.map (addSubtracted v) } else x).map fun e : Exchange => (e.pv.bind (·.subtracted)).getD 0).sum =
      (l.map fun e => (e.pv.bind (·.subtracted)).getD 0).sum + v * (l.filter p).length := by
  induction l with
  | nil => simp
  | cons a l ih =>
    simp only [List.map_cons, List.sum_cons]
    by_cases hp : p a = true
    · rw [List.filter_cons_of_pos hp] at h ⊢
      rw [ih fun x hx => h x (List.mem_cons_of_mem _ hx), if_pos hp]
      obtain ⟨q, hq⟩ := Option.ne_none_iff_exists'.mp (h a List.mem_cons_self)
      simp only [hq, Option.map_some, Option.bind_some, addSubtracted, Option.getD_some, List.length_cons, Nat.cast_add, Nat.cast_one]
      ring
    · rw [List.filter_cons_of_neg hp] at h ⊢
      rw [ih h, if_neg hp]
      ring

theorem addToTarget_subtracted {ds : Dataset} {e : Exchange} {t t' : Dataset} (h : addToTarget e.name e.amount (getBiggestPvRatio ds) t = .ok t') :
    t'.id = t.id ∧ subtractedOf t' = subtractedOf t + e.amount * ratioOf ds := by
  obtain ⟨s, x, hs, hc, hx, hpv, rfl⟩ := addToTarget_inv h
  refine ⟨rfl, ?_⟩
  have hx' : (t.exchanges.filter fun x => isProduction x && x.name == e.name) = [x] := by
    rw [← hx]
    unfold production
    rw [List.filter_filter]
    exact List.filter_congr fun y _ => Bool.and_comm _ _
  have := sum_updated (fun x => isProduction x && x.name == e.name) (e.amount * s) t.exchanges (by rw [hx']; simpa using hpv)
  unfold subtractedOf
  simp only
  rw [this, hx']
  simp [ratioOf, hs]

/-- The lines explain how the volumes have changed. -/
def Explained (lines : List Line) (d d' : Dataset) : Prop := d'.id = d.id ∧ subtractedOf d' = subtractedOf d + (lines.map (saysSubtracted d.id)).sum

theorem explained_ids {lines : List Line} {a b : List Dataset} (h : List.Forall₂ (Explained lines) a b) : b.map (·.id) = a.map (·.id) := by
  induction h with
  | nil => rfl
  | cons h _ ih => rw [List.map_cons, List.map_cons, h.1, ih]

theorem hardLinkStepD_explained {data : List Dataset} (hnd : (data.map (·.id)).Nodup) {ds : Dataset} {e : Exchange} {lines lines' : List Line} {st st' : List Dataset}
    (hst : List.Forall₂ (Explained lines) data st) (h : hardLinkStepD ds (lines, st) e = .ok (lines', st')) : List.Forall₂ (Explained lines') data st' := by
  unfold hardLinkStepD at h
  cases hl : e.activityLink with
  | none =>
    rw [hl] at h
    obtain ⟨rfl, rfl⟩ := Prod.mk.inj (Except.ok.inj h); exact hst
  | some l =>
    rw [hl] at h
    simp only at h
    by_cases h0 : l = ""
    · rw [if_pos h0] at h
      obtain ⟨rfl, rfl⟩ := Prod.mk.inj (Except.ok.inj h); exact hst
    rw [if_neg h0] at h
    by_cases h1 : l = ds.id
    · rw [if_pos h1] at h
      obtain ⟨rfl, rfl⟩ := Prod.mk.inj (Except.ok.inj h)
      refine hst.imp fun a b hab => ⟨hab.1, ?_⟩
      rw [hab.2, List.map_append, List.sum_append]
      simp [saysSubtracted, formatLine]
    rw [if_neg h1] at h
    obtain ⟨next, hm, h⟩ := bind_eq_ok.mp h
    obtain ⟨t, ht, h⟩ := bind_eq_ok.mp h
    obtain ⟨line, hline, h⟩ := bind_eq_ok.mp h
    obtain ⟨rfl, rfl⟩ := Prod.mk.inj (Except.ok.inj h)
    have hnd' : (st.map (·.id)).Nodup := by rw [explained_ids hst]; exact hnd
    obtain ⟨l₁, d, d', l₂, rfl, hid, hadd, rfl⟩ := modifyLast_inv hnd' hm
    have hf := find_rev hnd' (getKey_eq_ok.mp ht)
    have htd : d = t := by
      have : d ∈ (l₁ ++ d :: l₂).filter fun d => d.id == l := List.mem_filter.mpr ⟨by simp, by simp [hid]⟩
      rw [hf] at this
      simpa using this
    subst htd
    obtain ⟨x, -, hl'⟩ := linkLine_of hadd
    obtain rfl := Except.ok.inj (hl'.symm.trans hline)
    obtain ⟨hid', hsub⟩ := addToTarget_subtracted hadd
    have hsays : ∀ i, saysSubtracted i (formatLine "add_hard_linked_production_volumes" d (.subtractLink (e.amount * ratioOf ds) (vol x) ds.name ds.location)) =
        if l = i then e.amount * ratioOf ds else 0 := by
      intro i
      simp only [saysSubtracted, formatLine, hid]
    have hother : ∀ a b, Explained lines a b → b.id ≠ l → Explained (lines ++ [formatLine "add_hard_linked_production_volumes" d (.subtractLink (e.amount * ratioOf ds) (vol x) ds.name ds.location)]) a b := by
      intro a b hab hb
      refine ⟨hab.1, ?_⟩
      rw [hab.2, List.map_append, List.sum_append, List.map_singleton, hsays, if_neg (fun h => hb (hab.1.trans h.symm))]
      simp
    have hu := List.forall₂_take_append _ _ _ hst
    have hv := List.forall₂_drop_append _ _ _ hst
    rw [List.map_append, List.map_cons] at hnd'
    rw [← List.take_append_drop l₁.length data]
    refine List.rel_append ?_ ?_
    · refine List.forall₂_iff_zip.mpr ⟨hu.length_eq, fun {a b} hab => hother a b ((List.forall₂_iff_zip.mp hu).2 hab) fun hb => ?_⟩
      exact (List.nodup_append.mp hnd').2.2 b.id (List.mem_map.mpr ⟨b, (List.of_mem_zip hab).2, rfl⟩) d.id (by simp) (by rw [hid, hb])
    · revert hv
      generalize data.drop l₁.length = v
      intro hv
      cases hv with
      | cons h3 h4 =>
        refine .cons ⟨hid'.trans h3.1, ?_⟩ ?_
        · rw [hsub, h3.2, List.map_append, List.sum_append, List.map_singleton, hsays, if_pos (hid.symm.trans h3.1)]
          simp [add_assoc]
        · refine List.forall₂_iff_zip.mpr ⟨h4.length_eq, fun {a b} hab => hother a b ((List.forall₂_iff_zip.mp h4).2 hab) fun hb => ?_⟩
          exact (List.nodup_cons.mp (List.nodup_append.mp hnd').2.1).1 (List.mem_map.mpr ⟨b, (List.of_mem_zip hab).2, by rw [hid, hb]⟩)

/-- **C133**, `add_hard_linked_production_volumes` (with different identifiers, as `ensure_ids_are_unique` demands): the lines are exactly those of the links, and the amounts that they mention for a
dataset add up to what has been subtracted from its products. -/
theorem C133_hard_links (data : List Dataset) (hnd : (data.map (·.id)).Nodup) :
    Traces (addHardLinkedD data) (addHardLinkedProductionVolumes data) fun lines out =>
      lines = (data.flatMap fun ds => ds.exchanges.flatMap (linkLines data ds)) ∧
      List.Forall₂ (fun d d' => subtractedOf d' = subtractedOf d + (lines.map (saysSubtracted d.id)).sum) data out := by
  constructor
  · exact foldD_data (fun st ds => foldD_data (hardLinkStepD_data ds) st ds.exchanges) ([], data) data
  · intro lines out h
    unfold addHardLinkedD at h
    have := foldE_inv (I := fun pre (st : List Line × List Dataset) => st.1 = (pre.flatMap fun ds => ds.exchanges.flatMap (linkLines data ds)) ∧
      (∃ ws, st.2 = data.map (appliedDs ws)) ∧ List.Forall₂ (Explained st.1) data st.2) h ?_ ?_
    · exact ⟨this.1, this.2.2.imp fun a b hab => hab.2⟩
    · refine ⟨rfl, ⟨[], ?_⟩, List.forall₂_same.mpr fun d _ => ⟨rfl, by simp⟩⟩
      have : appliedDs ([] : List Contribution) = id := by funext d; exact appliedDs_nil d
      rw [this, List.map_id]
    · rintro pre ds ⟨l1, s1⟩ ⟨l2, s2⟩ hds ⟨h1, ⟨ws, h2⟩, h3⟩ hstep
      simp only at h1 h2 h3 hstep ⊢
      have inner := foldE_inv (I := fun p (st : List Line × List Dataset) => st.1 = l1 ++ p.flatMap (linkLines data ds) ∧
        (∃ ws, st.2 = data.map (appliedDs ws)) ∧ List.Forall₂ (Explained st.1) data st.2) hstep ⟨by simp, ⟨ws, h2⟩, h3⟩ ?_
      · refine ⟨?_, inner.2⟩
        have i1 : l2 = _ := inner.1
        rw [i1, h1]; simp [List.flatMap_append]
      · rintro p e ⟨m1, t1⟩ ⟨m2, t2⟩ he ⟨g1, ⟨ws, g2⟩, g3⟩ hs
        simp only at g1 g2 g3 hs ⊢
        refine ⟨?_, ?_, hardLinkStepD_explained hnd g3 hs⟩
        · subst g2
          rw [hardLinkStepD_lines hnd hs, g1]; simp [List.flatMap_append]
        · subst g2
          exact ⟨_, (hardLinkStep_inv hnd (snd_ok (hardLinkStepD_data ds (m1, data.map (appliedDs ws)) e) hs)).1⟩

/-! ## Production volumes and allocation methods -/

/-- **C133**, `update_transforming_activity_production_volumes`: a line for every product of a transforming activity from which hard links are subtracted, with what is subtracted and the volume before. -/
theorem C133_volumes (data : List Dataset) :
    Traces (updateTransformingD data) (updateTransformingVolumes data) fun lines _ =>
      lines = (data.filter fun ds => ds.type == .transforming).flatMap fun ds => (production ds).flatMap fun e =>
        match e.pv.bind (·.subtracted) with
        | none => []
        | some s => [⟨.subtractVolume s (vol e), "update_transforming_activity_production_volumes", ds.id, basename ds.filepath, ds.code⟩] := by
  constructor
  · refine mapD_data (fun ds => ?_) data
    split
    · rw [← mapD_data (f := updateProductionD ds) (g := updateProduction) (fun e => ?_) ds.exchanges]
      · cases mapD (updateProductionD ds) ds.exchanges <;> rfl
      · unfold updateProductionD updateProduction
        cases isAllocatable e with
        | error x => rfl
        | ok b => cases b <;> simp only [ebind_ok, Bool.false_eq_true, if_true, if_false] <;> [rfl; cases getKey e.pv <;> rfl]
    · rfl
  · intro lines out h
    have hmain := mapD_lines' (G := fun ds => if ds.type = .transforming then (production ds).flatMap fun e =>
        match e.pv.bind (·.subtracted) with
        | none => []
        | some s => [⟨.subtractVolume s (vol e), "update_transforming_activity_production_volumes", ds.id, basename ds.filepath, ds.code⟩] else []) (fun ds _ x d' hd => ?_) h
    · rw [hmain]
      clear hmain h
      induction data with
      | nil => rfl
      | cons a l ih =>
        rw [List.flatMap_cons, ih]
        by_cases ha : a.type = .transforming
        · rw [if_pos ha, List.filter_cons_of_pos (by simp [ha]), List.flatMap_cons]
        · rw [if_neg ha, List.filter_cons_of_neg (by simp [ha])]; rfl
    · by_cases ht : ds.type = .transforming
      · rw [if_pos ht] at hd ⊢
        obtain ⟨r, hr, hd⟩ := bind_eq_ok.mp hd
        obtain ⟨rfl, -⟩ := Prod.mk.inj (Except.ok.inj hd)
        have := mapD_lines' (G := fun e => if isProduction e then
            match e.pv.bind (·.subtracted) with
            | none => []
            | some s => [⟨.subtractVolume s (vol e), "update_transforming_activity_production_volumes", ds.id, basename ds.filepath, ds.code⟩] else [])
          (fun e _ x e' he => ?_) (lines := r.1) (out := r.2) hr
        · rw [this]
          unfold production
          generalize ds.exchanges = l
          induction l with
          | nil => rfl
          | cons a l ih =>
            rw [List.flatMap_cons, ih]
            by_cases ha : isProduction a = true
            · rw [if_pos ha, List.filter_cons_of_pos ha, List.flatMap_cons]
            · rw [if_neg ha, List.filter_cons_of_neg ha]; rfl
        · unfold updateProductionD at he
          obtain ⟨b, hb, he⟩ := bind_eq_ok.mp he
          have hbp : isProduction e = b := by
            have hc : e.type = .byproduct → e.cls ≠ none := by
              intro ht hn
              unfold isAllocatable at hb
              rw [ht] at hb
              simp [hn] at hb
            exact Except.ok.inj ((isAllocatable_ok hc).symm.trans hb)
          rw [hbp]
          cases b
          · simp only [Bool.false_eq_true, if_false] at he ⊢
            exact (Prod.mk.inj (Except.ok.inj he)).1.symm
          · simp only [if_true] at he ⊢
            obtain ⟨p, hp, he⟩ := bind_eq_ok.mp he
            have hp := getKey_eq_ok.mp hp
            obtain ⟨rfl, -⟩ := Prod.mk.inj (Except.ok.inj he)
            rw [hp]
            simp only [Option.bind_some]
            cases hs : p.subtracted with
            | none => rfl
            | some s => simp [formatLine, vol, hp]
      · rw [if_neg ht] at hd ⊢
        exact (Prod.mk.inj (Except.ok.inj hd)).1.symm

/-- **C133**, `label_allocation_method`: a line for every dataset, with its label. -/
theorem C133_methods (data : List Dataset) :
    Traces (labelMethodsD data) (labelAllocationMethod data) fun lines out =>
      lines = out.map fun d => ⟨.method (d.allocationMethod.getD ""), "label_allocation_method", d.id, basename d.filepath, d.code⟩ := by
  constructor
  · refine mapD_data (fun ds => ?_) data
    cases chooseAllocationMethod ds <;> rfl
  · intro lines out h
    obtain ⟨h1, h2⟩ := mapD_lines (G := fun _ d => [⟨.method (d.allocationMethod.getD ""), "label_allocation_method", d.id, basename d.filepath, d.code⟩]) (fun ds _ x d' hd => by
      obtain ⟨m, hm, hd⟩ := bind_eq_ok.mp hd
      obtain ⟨rfl, rfl⟩ := Prod.mk.inj (Except.ok.inj hd)
      rfl) h
    rw [h2]
    clear h2 h
    induction data generalizing out with
    | nil =>
      cases out with
      | nil => rfl
      | cons b l => simp at h1
    | cons a l ih =>
      cases out with
      | nil => simp at h1
      | cons b l' =>
        rw [List.zip_cons_cons, List.flatMap_cons, ih l' (by simpa using h1)]
        rfl

/-! ## Relabelling -/

theorem rowLine_of {v : ℚ} {d : Dataset} {e : Exchange} {p : PV} (hr : refs d = [e]) (hp : e.pv = some p) :
    rowLine v d = .ok (formatLine "relabel_global_to_row" d (.restOfWorld d.name (max (p.amount - v) 0) e.unit p.amount v)) := by
  unfold rowLine
  rw [getSingle_ok.mpr hr]
  simp only [ebind_ok, hp, getKey_some]
  rfl

theorem mapE_each {α β : Type} {f : α → Except Err β} {l : List α} {r : List β} (h : mapE f l = .ok r) : ∀ a ∈ l, ∃ b, f a = .ok b := by
  induction l generalizing r with
  | nil => simp
  | cons a l ih =>
    obtain ⟨b, r', hb, hr, rfl⟩ := mapE_cons_ok.mp h
    intro x hx
    rcases List.mem_cons.mp hx with rfl | hx
    · exact ⟨b, hb⟩
    · exact ih hr x hx

theorem zip_flatMap {α β γ : Type} (f : α → β) (r : α × β → List γ) (l : List α) : (l.zip (l.map f)).flatMap r = l.flatMap fun a => r (a, f a) := by
  induction l with
  | nil => rfl
  | cons a l ih => rw [List.map_cons, List.zip_cons_cons, List.flatMap_cons, List.flatMap_cons, ih]

theorem relabelGroupD_data (st : List Line × List ((String × List String) × Dataset)) (k : String × List String) :
    (relabelGroupD st k).map (·.2) = relabelGroup st.2 k := by
  unfold relabelGroupD relabelGroup
  simp only
  split
  · rfl
  · split
    · cases checkSingleGlobalDataset ((st.2.filter fun p => decide (p.1 = k)).map (·.2)) with
      | error e => rfl
      | ok u =>
        simp only [ebind_ok]
        cases hm : mapE (relabelMember k (regionalVolume ((st.2.filter fun p => decide (p.1 = k)).map (·.2)))) st.2 with
        | error e => rfl
        | ok next =>
          simp only [ebind_ok]
          have hall : ∀ d ∈ ((st.2.filter fun p => decide (p.1 = k)).map (·.2)).filter fun d => d.location == "GLO",
              ∃ l, rowLine (regionalVolume ((st.2.filter fun p => decide (p.1 = k)).map (·.2))) d = .ok l := by
            intro d hd
            obtain ⟨hd, hg⟩ := List.mem_filter.mp hd
            obtain ⟨q, hq, rfl⟩ := List.mem_map.mp hd
            obtain ⟨hq1, hq2⟩ := List.mem_filter.mp hq
            obtain ⟨r, hr⟩ := mapE_each hm q hq1
            unfold relabelMember at hr
            rw [if_pos ⟨of_decide_eq_true hq2, by simpa using hg⟩] at hr
            obtain ⟨d', hd', -⟩ := bind_eq_ok.mp hr
            obtain ⟨-, e, p, he, hp⟩ := relabelGlobal_ok hd'
            exact ⟨_, rowLine_of he hp⟩
          obtain ⟨ls, hls⟩ := mapE_ok_of_forall hall
          rw [hls]
          rfl
    · rfl

/-- The lines of a dataset. -/
def rowLinesOf (data : List Dataset) (d : Dataset) : List Line := rowLines data (d, if Relabelled data d then asRow data d else d)

theorem rowLinesOf_not {data : List Dataset} {d : Dataset} (h : ¬ Relabelled data d) : rowLinesOf data d = [] := by
  unfold rowLinesOf rowLines
  rw [if_neg h, if_pos rfl]

theorem rowLinesOf_row {data : List Dataset} {d : Dataset} {e : Exchange} {p : PV} (h : Relabelled data d) (hr : refs d = [e]) (hp : e.pv = some p) :
    rowLinesOf data d = [formatLine "relabel_global_to_row" d (.restOfWorld d.name (max (p.amount - regionalSum (activityGroup data d)) 0) e.unit p.amount (regionalSum (activityGroup data d)))] := by
  have he : e.type = .referenceProduct := by
    have : e ∈ refs d := by rw [hr]; simp
    simpa [refs] using (List.mem_filter.mp this).2
  have h1 : refs (asRow data d) = [restVolume (regionalSum (activityGroup data d)) e] := by
    have : refs (asRow data d) = (refs d).map (restVolume (regionalSum (activityGroup data d))) := by
      unfold refs asRow
      rw [List.filter_map]
      congr 1
      apply List.filter_congr
      intro x _
      simp only [Function.comp, restVolume]
      split <;> rfl
    rw [this, hr]; rfl
  have h2 : productionVolume d = some p.amount := by
    unfold productionVolume
    have : referenceProducts d = [e] := hr
    simp [this, hp]
  unfold rowLinesOf rowLines
  rw [if_pos h, if_neg (by show ¬ "RoW" = d.location; rw [h.1]; decide), h1]
  simp only [List.map_cons, List.map_nil, h2, restVolume, if_pos he, vol, hp, Option.map_some, Option.getD_some, formatLine]

theorem rowLines_group {data g : List Dataset} {v : ℚ} {ls : List Line} (hls : mapE (rowLine v) (g.filter fun d => d.location == "GLO") = .ok ls)
    (hrel : ∀ d ∈ g, (Relabelled data d ↔ d.location = "GLO")) (hcan : ∀ d ∈ g, Relabelled data d → CanRelabel data d)
    (hsum : ∀ d ∈ g, regionalSum (activityGroup data d) = v) : ls = g.flatMap (rowLinesOf data) := by
  induction g generalizing ls with
  | nil => cases hls; rfl
  | cons d g ih =>
    have ih' := fun {ls} (hls : mapE (rowLine v) (g.filter fun d => d.location == "GLO") = .ok ls) => ih hls (fun d hd => hrel d (List.mem_cons_of_mem _ hd))
      (fun d hd => hcan d (List.mem_cons_of_mem _ hd)) (fun d hd => hsum d (List.mem_cons_of_mem _ hd))
    by_cases hg : d.location = "GLO"
    · rw [List.filter_cons, if_pos (by simpa using hg)] at hls
      obtain ⟨b, r, hb, hr, rfl⟩ := mapE_cons_ok.mp hls
      have hR := (hrel d List.mem_cons_self).mpr hg
      obtain ⟨-, e, p, he, hp⟩ := hcan d List.mem_cons_self hR
      rw [rowLine_of he hp] at hb
      rw [List.flatMap_cons, rowLinesOf_row hR he hp, hsum d List.mem_cons_self, Except.ok.inj hb, ← ih' hr]
      rfl
    · rw [List.filter_cons, if_neg (by simpa using hg)] at hls
      rw [List.flatMap_cons, rowLinesOf_not fun h => hg h.1, List.nil_append]
      exact ih' hls

theorem relabelGroupD_step {data : List Dataset} {pre : List (String × List String)} {k : String × List String} {lg lg' : List Line}
    {st' : List ((String × List String) × Dataset)} (hk : k ∉ pre)
    (h : relabelGroupD (lg, data.map fun d => (rowKey d, rowAfter data pre d)) k = .ok (lg', st')) :
    lg' = lg ++ (data.filter fun o => decide (rowKey o = k)).flatMap (rowLinesOf data) := by
  have hcan := (relabelGroup_step hk (snd_ok (relabelGroupD_data _ k) h)).2
  have hgroup : (((data.map fun d => (rowKey d, rowAfter data pre d)).filter fun p => decide (p.1 = k)).map (·.2)) =
      data.filter fun o => decide (rowKey o = k) := by
    rw [List.filter_map, List.map_map]
    conv_rhs => rw [← List.map_id (data.filter fun o => decide (rowKey o = k))]
    apply List.map_congr_left
    intro d hd
    have hdk : rowKey d = k := by simpa using (List.mem_filter.mp hd).2
    simp only [Function.comp, id]
    unfold rowAfter
    rw [if_neg]
    rintro ⟨h1, -⟩
    exact hk (hdk ▸ h1)
  have hgr : ∀ d, rowKey d = k → activityGroup data d = data.filter fun o => decide (rowKey o = k) := by
    intro d hd; rw [activityGroup_eq, hd]
  have hnone : (∀ d ∈ data, rowKey d = k → ¬ Relabelled data d) → (data.filter fun o => decide (rowKey o = k)).flatMap (rowLinesOf data) = [] := by
    intro hn
    rw [List.flatMap_eq_nil_iff]
    intro d hd
    obtain ⟨hd1, hd2⟩ := List.mem_filter.mp hd
    exact rowLinesOf_not (hn d hd1 (of_decide_eq_true hd2))
  unfold relabelGroupD at h
  simp only [hgroup] at h
  by_cases hmg : ((data.filter fun o => decide (rowKey o = k)).head?.map (·.type)) = some .marketGroup
  · rw [if_pos hmg] at h
    obtain ⟨rfl, -⟩ := Prod.mk.inj (Except.ok.inj h)
    rw [hnone, List.append_nil]
    intro d _ hdk hr
    exact hr.2.2 (by rw [hgr d hdk]; exact hmg)
  · rw [if_neg hmg] at h
    by_cases hc : 1 < (data.filter fun o => decide (rowKey o = k)).length ∧ (data.filter fun o => decide (rowKey o = k)).any (fun d => d.location == "GLO") = true
    · rw [if_pos hc] at h
      obtain ⟨u, -, h⟩ := bind_eq_ok.mp h
      obtain ⟨s, -, h⟩ := bind_eq_ok.mp h
      obtain ⟨ls, hls, h⟩ := bind_eq_ok.mp h
      obtain ⟨rfl, -⟩ := Prod.mk.inj (Except.ok.inj h)
      congr 1
      have hrel : ∀ d ∈ data.filter fun o => decide (rowKey o = k), (Relabelled data d ↔ d.location = "GLO") := by
        intro d hd
        obtain ⟨hd1, hd2⟩ := List.mem_filter.mp hd
        have hdk := of_decide_eq_true hd2
        refine ⟨fun h => h.1, fun h => ⟨h, ?_, ?_⟩⟩
        · rw [hgr d hdk]; exact hc.1
        · rw [hgr d hdk]; exact hmg
      have hcan' : ∀ d ∈ data.filter fun o => decide (rowKey o = k), Relabelled data d → CanRelabel data d := by
        intro d hd
        obtain ⟨hd1, hd2⟩ := List.mem_filter.mp hd
        exact hcan d hd1 (of_decide_eq_true hd2)
      have hsum : ∀ d ∈ data.filter fun o => decide (rowKey o = k),
          regionalSum (activityGroup data d) = regionalVolume (data.filter fun o => decide (rowKey o = k)) := by
        intro d hd
        rw [regionalVolume_eq, hgr d (of_decide_eq_true (List.mem_filter.mp hd).2)]
      exact rowLines_group hls hrel hcan' hsum
    · rw [if_neg hc] at h
      obtain ⟨rfl, -⟩ := Prod.mk.inj (Except.ok.inj h)
      rw [hnone, List.append_nil]
      intro d hd hdk hr
      apply hc
      rw [← hgr d hdk]
      exact ⟨hr.2.1, List.any_eq_true.mpr ⟨d, by rw [hgr d hdk]; exact List.mem_filter.mpr ⟨hd, by simp [hdk]⟩, by simp [hr.1]⟩⟩

/-- **C133**, `relabel_global_to_row`: one line for each dataset whose location has changed, with its volume now, its volume before and the original volumes of the other datasets of the
activity, and no other line, up to the order of the lines. -/
theorem C133_rest_of_world (data : List Dataset) :
    Traces (relabelD data) (relabelGlobalToRow data) fun lines out => out.length = data.length ∧ lines.Perm ((data.zip out).flatMap (rowLines data)) := by
  have hdata : (relabelD data).map (·.2) = relabelGlobalToRow data := by
    unfold relabelD relabelGlobalToRow
    cases mapE withRowKey data with
    | error e => rfl
    | ok st =>
      simp only [ebind_ok]
      rw [← foldD_data relabelGroupD_data (([] : List Line), st)]
      cases foldE relabelGroupD ([], st) ((groupBy (·.1) st).map (·.1)) <;> rfl
  refine ⟨hdata, fun lg out h => ?_⟩
  obtain ⟨hout, -, -⟩ := relabel_inv (snd_ok hdata h)
  unfold relabelD at h
  obtain ⟨st, hst, h⟩ := bind_eq_ok.mp h
  obtain ⟨st', hst', h⟩ := bind_eq_ok.mp h
  obtain ⟨rfl, -⟩ := Prod.mk.inj (Except.ok.inj h)
  obtain ⟨rfl, -⟩ := withRowKey_mapE hst
  have hnd := groupBy_nodup (fun p : (String × List String) × Dataset => p.1) (data.map fun d => (rowKey d, d))
  have hinv := foldE_inv' (I := fun pre st => st.2 = (data.map fun d => (rowKey d, rowAfter data pre d)) ∧
      st.1 = pre.flatMap fun k => (data.filter fun o => decide (rowKey o = k)).flatMap (rowLinesOf data)) hst' (by
    refine ⟨?_, rfl⟩
    apply List.map_congr_left
    intro d _
    simp [rowAfter]) (by
    rintro pre k post ⟨lg, s⟩ ⟨lg', s'⟩ hl ⟨h1, h2⟩ hs
    simp only at h1 h2 ⊢
    subst h1
    have hk : k ∉ pre := by
      rw [hl] at hnd
      intro hmem
      exact (List.nodup_append.mp hnd).2.2 k hmem k (by simp) rfl
    refine ⟨(relabelGroup_step hk (snd_ok (relabelGroupD_data _ k) hs)).1, ?_⟩
    rw [relabelGroupD_step hk hs, h2, List.flatMap_append]
    simp)
  refine ⟨by rw [hout, List.length_map], ?_⟩
  have hzip : (data.zip out).flatMap (rowLines data) = data.flatMap (rowLinesOf data) := by
    rw [hout]
    exact zip_flatMap _ _ _
  have hgs : ((groupBy (fun p : (String × List String) × Dataset => p.1) (data.map fun d => (rowKey d, d))).map (·.1)).flatMap
      (fun k => (data.filter fun o => decide (rowKey o = k)).flatMap (rowLinesOf data)) =
      ((groupBy (fun p : (String × List String) × Dataset => p.1) (data.map fun d => (rowKey d, d))).flatMap (·.2)).flatMap fun p => rowLinesOf data p.2 := by
    rw [List.flatMap_assoc, List.flatMap_map]
    apply List.flatMap_congr
    rintro ⟨k, g⟩ hg
    rw [groupBy_mem hg, List.filter_map, List.flatMap_map]
    rfl
  rw [hinv.2, hgs, hzip]
  refine ((groupBy_perm _ _).flatMap_right _).trans ?_
  rw [List.flatMap_map]

/-! ## Links -/

/-- **C133**, `actualize_activity_links`: a line for every link that leads to exactly one dataset, with the name and the place of that dataset. -/
theorem C133_linked (data : List Dataset) :
    Traces (actualizeD data) (actualizeActivityLinks data) fun lines _ =>
      lines = data.flatMap fun ds => ds.exchanges.flatMap fun e =>
        if e.activityLink.getD "" = "" then [] else
        match targetsOfLink data e with
        | [t] => [⟨.linked e.name t.name t.location, "actualize_activity_links", ds.id, basename ds.filepath, ds.code⟩]
        | _ => [] := by
  constructor
  · refine mapD_data (fun ds => ?_) data
    unfold mapExchangesE
    rw [← mapD_data (f := actualizeLinkD data ds) (g := actualizeLink data) (fun e => ?_) ds.exchanges]
    · cases mapD (actualizeLinkD data ds) ds.exchanges <;> rfl
    · unfold actualizeLinkD actualizeLink
      split
      · rfl
      · simp only
        split
        · rfl
        · simp only [epure]
          cases filterE (makesProduct e.name) (data.filter fun ds => decide (some ds.id = e.activityLink)) with
          | error x => rfl
          | ok refs =>
            simp only [ebind_ok]
            rcases refs with _ | ⟨a, _ | ⟨b, l⟩⟩
            · rfl
            · unfold linkToOnly
              simp only
              cases getKey a.code <;> rfl
            · rfl
  · intro lines out h
    refine mapD_lines' (fun ds _ x d' hd => ?_) h
    obtain ⟨r, hr, hd⟩ := bind_eq_ok.mp hd
    obtain ⟨rfl, -⟩ := Prod.mk.inj (Except.ok.inj hd)
    refine mapD_lines' (fun e _ x e' he => ?_) (lines := r.1) (out := r.2) hr
    unfold actualizeLinkD at he
    by_cases hl : e.activityLink.getD "" = ""
    · rw [if_pos hl] at he ⊢
      exact (Prod.mk.inj (Except.ok.inj he)).1.symm
    · rw [if_neg hl] at he ⊢
      simp only at he
      split at he
      · cases he
      · simp only [epure] at he
        obtain ⟨refs, hrefs, he⟩ := bind_eq_ok.mp he
        have hre := filterE_makesProduct hrefs
        rw [List.filter_filter] at hre
        have htar : targetsOfLink data e = refs := by
          rw [hre]
          unfold targetsOfLink
          refine List.filter_congr fun d _ => ?_
          rw [Bool.decide_and, Bool.and_comm]
        rw [htar]
        rcases refs with _ | ⟨a, _ | ⟨b, l⟩⟩
        · exact (Prod.mk.inj (Except.ok.inj he)).1.symm
        · simp only at he
          obtain ⟨c, -, he⟩ := bind_eq_ok.mp he
          exact (Prod.mk.inj (Except.ok.inj he)).1.symm
        · exact (Prod.mk.inj (Except.ok.inj he)).1.symm

/-! ## Inputs of markets -/

namespace Spec

/-- Amount, unit and product of an input that a line says to have been created. -/
def saysCreated (l : Line) : Option (ℚ × String × String × String × String) :=
  match l.message with
  | .created amount unit product supplier location => some (amount, unit, product, supplier, location)
  | _ => none

/-- The amounts of the inputs that are said to have been created. -/
def createdAmounts (lines : List Line) : List ℚ := (lines.filterMap saysCreated).map (·.1)

end Spec

theorem created_lines (ds : Dataset) (exc : Exchange) {total : ℚ} (ht : total ≠ 0) (entries : List Exchange) :
    (createdLines ds exc total entries).filterMap saysCreated =
      (entries.filter fun s => vol s != 0).map fun s => (vol s / total * exc.amount, s.unit, exc.name, s.name, s.location.getD "") := by
  unfold createdLines
  induction entries with
  | nil => rfl
  | cons a l ih =>
    rw [List.flatMap_cons, List.filterMap_append, ih, List.filter_cons]
    change List.filterMap saysCreated (if vol a / total = 0 then [] else _) ++ _ = _
    by_cases h0 : vol a = 0
    · rw [if_pos (by rw [h0]; simp)]
      simp [h0]
    · rw [if_neg (by rw [div_eq_zero_iff]; exact fun h => h.elim h0 ht), if_pos (by simpa using h0)]
      rfl

theorem shares_sum (a t : ℚ) (ht : t ≠ 0) (l : List Exchange) (hl : (l.map vol).sum = t) : (((l.filter fun s => vol s != 0).map fun s => vol s / t * a)).sum = a := by
  have h : ∀ l : List Exchange, (((l.filter fun s => vol s != 0).map fun s => vol s / t * a)).sum = (l.map vol).sum / t * a := by
    intro l
    induction l with
    | nil => simp
    | cons s l ih =>
      rw [List.filter_cons]
      by_cases h0 : vol s = 0
      · rw [if_neg (by simp [h0]), ih, List.map_cons, List.sum_cons, h0, zero_add]
      · rw [if_pos (by simpa using h0), List.map_cons, List.sum_cons, ih, List.map_cons, List.sum_cons]
        ring
  rw [h, hl, div_self ht, one_mul]

theorem allocateSuppliersD_data (ds : Dataset) : (allocateSuppliersD ds).map (·.2) = allocateSuppliers ds := by
  unfold allocateSuppliersD allocateSuppliers
  cases getSingleReferenceProduct ds with
  | error x => rfl
  | ok exc =>
    simp only [ebind_ok]
    cases getKey ds.suppliers with
    | error x => rfl
    | ok sup =>
      simp only [ebind_ok]
      cases mapE entryVolume sup with
      | error x => rfl
      | ok vols =>
        simp only [ebind_ok]
        by_cases h0 : vols.sum = 0
        · simp only [h0, if_true]
          by_cases h1 : sup.length ≠ 1
          · simp only [if_pos h1]; rfl
          · simp only [if_neg h1]
            cases getKey ds.refProduct with
            | error x => rfl
            | ok rp =>
              simp only [ebind_ok]
              have hloc : (mapE (fun s : Exchange => do
                    let l ← getKey s.location
                    return formatLine "allocate_suppliers" ds (.defaultVolume ds.name rp ds.location s.name l)) sup).map (fun _ => ()) =
                  (mapE (fun s : Exchange => getKey s.location) sup).map fun _ => () := by
                clear h0 h1
                induction sup with
                | nil => rfl
                | cons s l ih =>
                  simp only [mapE]
                  cases getKey s.location with
                  | error x => rfl
                  | ok c =>
                    simp only [ebind_ok, epure]
                    revert ih
                    generalize mapE (fun s : Exchange => getKey s.location) l = y
                    intro ih
                    revert ih
                    simp only [epure]
                    generalize mapE _ l = x
                    intro ih
                    cases x <;> cases y <;> exact ih
              revert hloc
              generalize mapE (fun s : Exchange => getKey s.location) sup = y
              generalize mapE _ sup = x
              intro hloc
              cases x with
              | error e =>
                cases y with
                | error e' => exact congrArg Except.error (Except.error.inj hloc)
                | ok _ => cases hloc
              | ok lines =>
                cases y with
                | error e' => cases hloc
                | ok _ =>
                  simp only [ebind_ok]
                  cases flatMapE (marketInput exc.amount 4321) (sup.map defaultVolume) <;> rfl
        · simp only [h0, if_false]
          cases flatMapE (marketInput exc.amount vols.sum) sup <;> rfl

namespace Spec

/-- The lines about the inputs of a market or market group `d` that has become `d'`: every line is about the dataset, for each input that was added there is a line with its amount and unit, the product
of the dataset and the name of the input, and no other; unless nothing was added, the amounts add up to the production of the dataset. -/
def InputsLogged (d d' : Dataset) (lines : List Line) : Prop :=
  (∀ l ∈ lines, l.id = d.id ∧ l.code = d.code ∧ l.filename = basename d.filepath) ∧
  ∃ rp new, refs d = [rp] ∧ d'.exchanges = d.exchanges ++ new ∧
    (lines.filterMap saysCreated).map (fun c => (c.1, c.2.1, c.2.2.1, c.2.2.2.1)) = new.map (fun n => (n.amount, n.unit, rp.name, n.name)) ∧
    (new ≠ [] → (createdAmounts lines).sum = rp.amount)

end Spec

theorem created_about (ds : Dataset) (exc : Exchange) (total : ℚ) (entries : List Exchange) :
    ∀ l ∈ createdLines ds exc total entries, l.id = ds.id ∧ l.code = ds.code ∧ l.filename = basename ds.filepath := by
  intro l hl
  unfold createdLines at hl
  obtain ⟨s, -, hs⟩ := List.mem_flatMap.mp hl
  simp only at hs
  split at hs
  · cases hs
  · rw [List.mem_singleton] at hs
    subst hs
    exact ⟨rfl, rfl, rfl⟩

/-- **C133**, `allocate_suppliers` for markets and market groups. -/
theorem C133_market (ds : Dataset) : Traces (allocateSuppliersD ds) (allocateSuppliers ds) fun lines out => InputsLogged ds out lines := by
  refine ⟨allocateSuppliersD_data ds, fun lines out h => ?_⟩
  unfold allocateSuppliersD at h
  obtain ⟨exc, hexc, h⟩ := bind_eq_ok.mp h
  obtain ⟨sup, hsup, h⟩ := bind_eq_ok.mp h
  obtain ⟨vols, hvols, h⟩ := bind_eq_ok.mp h
  obtain ⟨rfl, hpv⟩ := mapE_entryVolume hvols
  have hrp : refs ds = [exc] := by
    unfold getSingleReferenceProduct at hexc
    have : referenceProducts ds = refs ds := rfl
    rw [this] at hexc
    rcases hr : refs ds with _ | ⟨a, _ | ⟨b, l⟩⟩ <;> rw [hr] at hexc <;> simp_all
  by_cases h0 : (sup.map vol).sum = 0
  · rw [if_pos h0] at h
    by_cases h1 : sup.length ≠ 1
    · rw [if_pos h1] at h
      obtain ⟨rfl, rfl⟩ := Prod.mk.inj (Except.ok.inj h)
      exact ⟨fun l hl => (by cases hl), exc, [], hrp, by simp, rfl, fun h => absurd rfl h⟩
    · rw [if_neg h1] at h
      simp only [epure] at h
      obtain ⟨rp, -, h⟩ := bind_eq_ok.mp h
      obtain ⟨dl, hdl, h⟩ := bind_eq_ok.mp h
      obtain ⟨new, hnew, h⟩ := bind_eq_ok.mp h
      obtain ⟨rfl, rfl⟩ := Prod.mk.inj (Except.ok.inj h)
      have hdl' : ∀ l ∈ dl, (l.id = ds.id ∧ l.code = ds.code ∧ l.filename = basename ds.filepath) ∧ saysCreated l = none := by
        intro l hl
        obtain ⟨s, -, hs⟩ := mapE_mem hdl hl
        obtain ⟨c, -, hs⟩ := bind_eq_ok.mp hs
        cases hs
        exact ⟨⟨rfl, rfl, rfl⟩, rfl⟩
      obtain ⟨hnew', -⟩ := flatMapE_marketInput (by norm_num) hnew
      have hfm : (dl ++ createdLines ds exc 4321 (sup.map defaultVolume)).filterMap saysCreated = (createdLines ds exc 4321 (sup.map defaultVolume)).filterMap saysCreated := by
        rw [List.filterMap_append, List.filterMap_eq_nil_iff.mpr fun l hl => (hdl' l hl).2, List.nil_append]
      refine ⟨fun l hl => ?_, exc, new, hrp, rfl, ?_, fun _ => ?_⟩
      · rcases List.mem_append.mp hl with hl | hl
        · exact (hdl' l hl).1
        · exact created_about _ _ _ _ l hl
      · rw [hfm, created_lines ds exc (by norm_num), hnew', List.map_map, List.map_map]
        rfl
      · unfold createdAmounts
        rw [hfm, created_lines ds exc (by norm_num), List.map_map]
        refine shares_sum exc.amount 4321 (by norm_num) (sup.map defaultVolume) ?_
        push Not at h1
        obtain ⟨s, rfl⟩ := List.length_eq_one_iff.mp h1
        obtain ⟨p, hp⟩ := Option.isSome_iff_exists.mp (hpv s (by simp))
        simp [vol, defaultVolume, hp]
  · rw [if_neg h0] at h
    simp only [epure] at h
    obtain ⟨new, hnew, h⟩ := bind_eq_ok.mp h
    obtain ⟨rfl, rfl⟩ := Prod.mk.inj (Except.ok.inj h)
    obtain ⟨hnew', -⟩ := flatMapE_marketInput h0 hnew
    have hfm : (formatLine "allocate_suppliers" ds (.divided (sup.map vol).sum exc.name sup.length) :: createdLines ds exc (sup.map vol).sum sup).filterMap saysCreated =
        (createdLines ds exc (sup.map vol).sum sup).filterMap saysCreated := rfl
    refine ⟨fun l hl => ?_, exc, new, hrp, rfl, ?_, fun _ => ?_⟩
    · rcases List.mem_cons.mp hl with rfl | hl
      · exact ⟨rfl, rfl, rfl⟩
      · exact created_about _ _ _ _ l hl
    · rw [hfm, created_lines ds exc h0, hnew', List.map_map, List.map_map]
      rfl
    · unfold createdAmounts
      rw [hfm, created_lines ds exc h0, List.map_map]
      exact shares_sum exc.amount _ h0 sup rfl

/-- **C133**, `allocate_all_market_suppliers`: the lines of one dataset after the other. -/
theorem C133_markets (kind : DsType) (data : List Dataset) :
    Traces (allocateAllD kind data) (allocateAllMarketSuppliers kind data) fun lines out =>
      ∃ parts : List (List Line), lines = parts.flatten ∧ out.length = data.length ∧
        List.Forall₂ (fun p part => if p.1.type = kind then InputsLogged p.1 p.2 part else part = [] ∧ p.2 = p.1) (data.zip out) parts := by
  constructor
  · refine mapD_data (fun ds => ?_) data
    split
    · exact allocateSuppliersD_data ds
    · rfl
  · intro lines out h
    unfold allocateAllD at h
    induction data generalizing lines out with
    | nil => cases h; exact ⟨[], rfl, rfl, .nil⟩
    | cons a l ih =>
      obtain ⟨x, y, h1, h2, h3⟩ := mapD_cons_ok h
      obtain ⟨rfl, rfl⟩ := Prod.mk.inj h3
      obtain ⟨parts, i1, i2, i3⟩ := ih y.1 y.2 h2
      refine ⟨x.1 :: parts, by rw [i1]; rfl, by simp [i2], .cons ?_ i3⟩
      simp only at h1 ⊢
      split at h1
      · next ht => rw [if_pos ht]; exact (C133_market a).2 x.1 x.2 h1
      · next ht => rw [if_neg ht]; cases h1; exact ⟨rfl, rfl⟩

/-- **C133**, violated by `allocate_suppliers`: the lines do not say which activities the inputs come from. They give the name of the entry, which is the product, as the name of the supplier, so
that they are the same whatever the activities and codes of the suppliers are. -/
theorem C133_supplier_unnamed (ds : Dataset) (sup : List Exchange) (code activity : String → String) :
    (allocateSuppliersD { ds with suppliers := some (sup.map fun s => { s with code := s.code.map code, activity := s.activity.map activity }) }).map (·.1) =
      (allocateSuppliersD { ds with suppliers := some sup }).map (·.1) := by
  have hvol : mapE entryVolume (sup.map fun s : Exchange => { s with code := s.code.map code, activity := s.activity.map activity }) = mapE entryVolume sup := by
    rw [mapE_map']; rfl
  have hin : ∀ (a t : ℚ) (l : List Exchange), (flatMapE (marketInput a t) (l.map fun s : Exchange => { s with code := s.code.map code, activity := s.activity.map activity })).map (fun _ => ()) =
      (flatMapE (marketInput a t) l).map fun _ => () := by
    intro a t l
    induction l with
    | nil => rfl
    | cons s l ih =>
      simp only [List.map_cons, flatMapE]
      have h1 : (marketInput a t { s with code := s.code.map code, activity := s.activity.map activity }).map (fun _ => ()) = (marketInput a t s).map fun _ => () := by
        unfold marketInput
        simp only
        cases getKey s.pv with
        | error x => rfl
        | ok p =>
          simp only [ebind_ok]
          split
          · rfl
          · cases s.code with
            | none => rfl
            | some c => simp only [Option.map_some, getKey_some, epure, ebind_ok]; cases getKey s.location <;> rfl
      revert h1 ih
      generalize flatMapE (marketInput a t) (l.map _) = x
      generalize flatMapE (marketInput a t) l = y
      generalize marketInput a t { s with code := s.code.map code, activity := s.activity.map activity } = v
      generalize marketInput a t s = w
      intro ih h1
      cases v <;> cases w <;> cases x <;> cases y <;> simp_all [Except.map]
  have hcr : ∀ (t : ℚ) (exc : Exchange) (l : List Exchange) (d : Dataset), createdLines d exc t (l.map fun s : Exchange => { s with code := s.code.map code, activity := s.activity.map activity }) =
      createdLines d exc t l := by
    intro t exc l d
    unfold createdLines
    rw [List.flatMap_map]
  have hdef : (sup.map fun s : Exchange => { s with code := s.code.map code, activity := s.activity.map activity }).map defaultVolume =
      (sup.map defaultVolume).map fun s : Exchange => { s with code := s.code.map code, activity := s.activity.map activity } := by
    rw [List.map_map, List.map_map]; rfl
  have hsame : ∀ (d e : Dataset) (t : ℚ) (exc : Exchange) (l : List Exchange), d.id = e.id → d.filepath = e.filepath → d.code = e.code → createdLines d exc t l = createdLines e exc t l := by
    intro d e t exc l h1 h2 h3
    unfold createdLines formatLine
    rw [h1, h2, h3]
  unfold allocateSuppliersD
  have hrp : getSingleReferenceProduct { ds with suppliers := some (sup.map fun s : Exchange => { s with code := s.code.map code, activity := s.activity.map activity }) } =
      getSingleReferenceProduct { ds with suppliers := some sup } := rfl
  rw [hrp]
  cases getSingleReferenceProduct { ds with suppliers := some sup } with
  | error x => rfl
  | ok exc =>
    simp only [ebind_ok, getKey_some, hvol]
    cases mapE entryVolume sup with
    | error x => rfl
    | ok vols =>
      simp only [ebind_ok, List.length_map]
      split
      · split
        · rfl
        · simp only [epure]
          cases getKey ds.refProduct with
          | error x => rfl
          | ok rp =>
            simp only [ebind_ok, mapE_map', hdef, hcr, formatLine]
            generalize mapE _ sup = z
            cases z with
            | error x => rfl
            | ok dl =>
              simp only [ebind_ok]
              have := hin exc.amount 4321 (sup.map defaultVolume)
              revert this
              generalize flatMapE (marketInput exc.amount 4321) ((sup.map defaultVolume).map _) = x
              generalize flatMapE (marketInput exc.amount 4321) (sup.map defaultVolume) = y
              intro hh
              cases x <;> cases y <;> simp_all [Except.map]
              exact hsame _ _ _ _ _ rfl rfl rfl
      · simp only [epure, hcr, formatLine]
        have := hin exc.amount vols.sum sup
        revert this
        generalize flatMapE (marketInput exc.amount vols.sum) (sup.map _) = x
        generalize flatMapE (marketInput exc.amount vols.sum) sup = y
        intro hh
        cases x <;> cases y <;> simp_all [Except.map]
        exact hsame _ _ _ _ _ rfl rfl rfl

/-! ## Inputs of other datasets -/

theorem splitInputD_data (M : MathEnv) (ds : Dataset) (e : Exchange) (entries : List Exchange) (ex : List (Option ℕ × Exchange)) :
    (splitInputD M ds e entries ex).map (·.2) = splitInput M e entries ex := by
  unfold splitInputD splitInput
  cases mapE entryVolume entries with
  | error x => rfl
  | ok vols =>
    simp only [ebind_ok]
    split
    · rfl
    · simp only [epure]
      cases flatMapE (inputShare M e vols.sum) entries <;> rfl

theorem useMarketsD_data (M : MathEnv) (ds : Dataset) (st : LinkState) (e : Exchange) (i : ℕ) (chosen : List Dataset) :
    (useMarketsD M ds st e i chosen).map (·.2) = useMarkets M st e i chosen := by
  unfold useMarketsD useMarkets
  rcases chosen with _ | ⟨a, _ | ⟨b, l⟩⟩
  · rfl
  · simp only
    cases getKey a.code <;> rfl
  · simp only
    rw [← splitInputD_data M ds]
    cases splitInputD M ds e ((a :: b :: l).map (consumerEntry e)) st.exchanges <;> rfl

theorem linkInputD_data (M : MathEnv) (T : Topology) (data : List Dataset) (ds : Dataset) (crow : Option (Finset ℕ)) (st : List Line × LinkState) (p : Exchange × ℕ) :
    (linkInputD M T data ds crow st p).map (·.2) = linkInput M T data ds.location crow st.2 p := by
  unfold linkInputD linkInput
  cases candidatesFor data st.2.candidates p.1.name with
  | error x => rfl
  | ok cand =>
    simp only [ebind_ok]
    cases chooseMarkets T ds.location crow cand with
    | error x => rfl
    | ok chosen =>
      simp only [ebind_ok]
      rw [← useMarketsD_data M ds]
      cases useMarketsD M ds { st.2 with candidates := some cand } p.1 p.2 chosen <;> rfl

theorem linkConsumerD_data (M : MathEnv) (T : Topology) (data : List Dataset) (cand : Option (List Dataset)) (ds : Dataset) :
    (linkConsumerD M T data cand ds).map (fun r => (r.1, r.2.2)) = linkConsumer M T data cand ds := by
  unfold linkConsumerD linkConsumer
  split
  · rfl
  · cases consumerRow T data ds with
    | error x => rfl
    | ok crow =>
      simp only [ebind_ok]
      rw [← foldD_data (linkInputD_data M T data ds crow)
        ([], { candidates := cand, exchanges := ds.exchanges.zipIdx.map fun p => (some p.2, p.1), suppliers := ds.suppliers })]
      cases foldE (linkInputD M T data ds crow) ([], { candidates := cand, exchanges := ds.exchanges.zipIdx.map fun p => (some p.2, p.1), suppliers := ds.suppliers })
        (ds.exchanges.zipIdx.filter fun p => isUnlinked p.1) <;> rfl

theorem scanD_data {M : MathEnv} {T : Topology} {data : List Dataset} (cand : Option (List Dataset)) (l : List Dataset) :
    (scanE (linkConsumerD M T data) cand l).map (fun r => r.map (·.2)) = scanE (linkConsumer M T data) cand l := by
  induction l generalizing cand with
  | nil => rfl
  | cons a l ih =>
    simp only [scanE, ← linkConsumerD_data]
    cases linkConsumerD M T data cand a with
    | error x => rfl
    | ok r =>
      simp only [ebind_ok, Except.map, ← ih]
      cases scanE (linkConsumerD M T data) r.1 l <;> rfl

/-- **C133**, `link_consumers_to_markets` does the same as without the log. -/
theorem C133_consumers (M : MathEnv) (T : Topology) (data : List Dataset) : (linkConsumersD M T data).map (·.2) = linkConsumersToMarkets M T data := by
  unfold linkConsumersD linkConsumersToMarkets
  cases mapE withRefProduct (data.filter fun d => d.type == .market || d.type == .marketGroup) with
  | error x => rfl
  | ok _ =>
    simp only [ebind_ok]
    rw [← scanD_data]
    cases scanE (linkConsumerD M T data) none data <;> rfl

namespace Spec

/-- Product, supplier and place of a line that says that an input is bought from a market. -/
def saysConsumption (l : Line) : Option (String × String × String) :=
  match l.message with
  | .consumption product name location => some (product, name, location)
  | _ => none

end Spec

/-- **C133**, one market: the line says which one, and the input gets its code. -/
theorem C133_complete {M : MathEnv} {ds obj : Dataset} {st st' : LinkState} {e : Exchange} {i : ℕ} {lines : List Line} (h : useMarketsD M ds st e i [obj] = .ok (lines, st')) :
    lines = [⟨.complete e.name e.amount obj.name obj.location, "link_consumers_to_markets", ds.id, basename ds.filepath, ds.code⟩] ∧ obj.code.isSome ∧
      st'.exchanges = st.exchanges.map fun p => if p.1 = some i then (p.1, { p.2 with code := obj.code }) else p := by
  unfold useMarketsD at h
  obtain ⟨c, hc, h⟩ := bind_eq_ok.mp h
  obtain ⟨rfl, rfl⟩ := Prod.mk.inj (Except.ok.inj h)
  have hc := getKey_eq_ok.mp hc
  refine ⟨rfl, by simp [hc], ?_⟩
  rw [hc]
  rfl

theorem shares_amounts {M : MathEnv} {e : Exchange} {total : ℚ} (ht : total ≠ 0) {entries new : List Exchange} (h : flatMapE (inputShare M e total) entries = .ok new) :
    new.map (·.amount) = (entries.filter fun s => vol s != 0).map fun s => vol s / total * e.amount := by
  induction entries generalizing new with
  | nil => cases h; rfl
  | cons s l ih =>
    obtain ⟨b, r, hb, hr, rfl⟩ := flatMapE_cons_ok.mp h
    unfold inputShare at hb
    obtain ⟨p, hp, hb⟩ := bind_eq_ok.mp hb
    have hp := getKey_eq_ok.mp hp
    have hv : vol s = p.amount := by simp [vol, hp]
    rw [List.map_append, ih hr, List.filter_cons]
    simp only at hb
    split at hb
    · next h0 =>
      cases hb
      have : vol s = 0 := by rw [hv]; exact (div_eq_zero_iff.mp h0).resolve_right ht
      simp [this]
    · next h0 =>
      simp only [epure] at hb
      obtain ⟨n, hn, hb⟩ := bind_eq_ok.mp hb
      obtain ⟨c, -, hb⟩ := bind_eq_ok.mp hb
      obtain ⟨lo, -, hb⟩ := bind_eq_ok.mp hb
      cases hb
      have hne : vol s ≠ 0 := by rw [hv]; intro h; exact h0 (by rw [h]; simp)
      have hs := scaleExchange_scaled hn
      unfold ScaledBy at hs
      rw [if_pos (by simpa using hne), List.map_cons, List.map_cons, hs, hv, mul_comm]
      rfl

/-- **C133**, several markets: there is a line for every market that was chosen, with its place, but the product is given as the name of the market (violating the property); if the markets have volumes,
the lines about created inputs have exactly the amounts of the inputs that replace the exchange, and these add up to its amount; otherwise nothing is changed although the lines say that the input is bought. -/
theorem C133_several {M : MathEnv} {ds a b : Dataset} {l : List Dataset} {st st' : LinkState} {e : Exchange} {i : ℕ} {lines : List Line}
    (h : useMarketsD M ds st e i (a :: b :: l) = .ok (lines, st')) :
    lines.filterMap saysConsumption = (a :: b :: l).map (fun m => (e.name, e.name, m.location)) ∧
    (((a :: b :: l).map fun m => (productionVolume m).getD 0).sum = 0 → st'.exchanges = st.exchanges ∧ createdAmounts lines = []) ∧
    (((a :: b :: l).map fun m => (productionVolume m).getD 0).sum ≠ 0 → ∃ new : List Exchange,
      st'.exchanges = (st.exchanges ++ new.map fun n => (none, n)).filter (fun p => decide (p.2 ≠ e)) ∧ createdAmounts lines = new.map (·.amount) ∧ (new.map (·.amount)).sum = e.amount) := by
  unfold useMarketsD at h
  simp only at h
  obtain ⟨r, hr, h⟩ := bind_eq_ok.mp h
  obtain ⟨rfl, rfl⟩ := Prod.mk.inj (Except.ok.inj h)
  clear h
  generalize hch : a :: b :: l = chosen at hr ⊢
  clear hch
  unfold splitInputD at hr
  obtain ⟨vols, hvols, hr⟩ := bind_eq_ok.mp hr
  obtain ⟨rfl, -⟩ := mapE_entryVolume hvols
  have hve : (chosen.map (consumerEntry e)).map vol = chosen.map fun m => (productionVolume m).getD 0 := by
    rw [List.map_map]; rfl
  rw [hve] at hr
  have hcons : ((chosen.map (consumerEntry e)).map fun s => formatLine "link_consumers_to_markets" ds (.consumption e.name s.name (s.location.getD ""))).filterMap saysConsumption =
      chosen.map fun m => (e.name, e.name, m.location) := by
    rw [List.map_map, List.filterMap_map]
    exact congrFun (List.filterMap_eq_map (f := fun m : Dataset => (e.name, e.name, m.location))) chosen
  have hcre : ((chosen.map (consumerEntry e)).map fun s => formatLine "link_consumers_to_markets" ds (.consumption e.name s.name (s.location.getD ""))).filterMap saysCreated = [] := by
    rw [List.filterMap_eq_nil_iff]
    intro x hx
    obtain ⟨s, -, rfl⟩ := List.mem_map.mp hx
    rfl
  have hnot : ∀ (t : ℚ) (entries : List Exchange), (createdLines ds e t entries).filterMap saysConsumption = [] := by
    intro t entries
    rw [List.filterMap_eq_nil_iff]
    intro x hx
    unfold createdLines at hx
    obtain ⟨s, -, hs⟩ := List.mem_flatMap.mp hx
    simp only at hs
    split at hs
    · cases hs
    · rw [List.mem_singleton] at hs; subst hs; rfl
  split at hr
  · next h0 =>
    cases hr
    refine ⟨by rw [List.filterMap_append, hcons]; simp, fun _ => ⟨rfl, ?_⟩, fun hn => absurd h0 hn⟩
    unfold createdAmounts
    rw [List.filterMap_append, hcre]; rfl
  · next h0 =>
    simp only [epure] at hr
    obtain ⟨new, hnew, hr⟩ := bind_eq_ok.mp hr
    cases hr
    have ham := shares_amounts h0 hnew
    have hlog : createdAmounts (((chosen.map (consumerEntry e)).map fun s => formatLine "link_consumers_to_markets" ds (.consumption e.name s.name (s.location.getD ""))) ++
        formatLine "allocate_suppliers" ds (.divided (chosen.map fun m => (productionVolume m).getD 0).sum e.name (chosen.map (consumerEntry e)).length) ::
        createdLines ds e (chosen.map fun m => (productionVolume m).getD 0).sum (chosen.map (consumerEntry e))) = new.map (·.amount) := by
      unfold createdAmounts
      rw [List.filterMap_append, hcre, List.nil_append]
      change List.map _ ((createdLines ds e _ _).filterMap saysCreated) = _
      rw [created_lines ds e h0, ham, List.map_map]
      rfl
    refine ⟨?_, fun hz => absurd hz h0, fun _ => ⟨new, rfl, hlog, ?_⟩⟩
    · rw [List.filterMap_append, hcons]
      change _ ++ (createdLines ds e _ _).filterMap saysConsumption = _
      rw [hnot, List.append_nil]
    · rw [ham]
      exact shares_sum e.amount _ h0 _ (by rw [hve])

namespace Spec

/-- What is written about an input: nothing, the one market that it is linked to, or at least two markets, with amounts that sum to the amount of the input or with none. -/
def InputLines (ds : Dataset) (e : Exchange) (part : List Line) : Prop :=
  (∀ l ∈ part, l.id = ds.id ∧ l.code = ds.code ∧ l.filename = basename ds.filepath) ∧
  (part = [] ∨ (∃ name location, part.map (·.message) = [.complete e.name e.amount name location]) ∨
    (2 ≤ (part.filterMap saysConsumption).length ∧ (∀ c ∈ part.filterMap saysConsumption, c.1 = e.name) ∧ (createdAmounts part = [] ∨ (createdAmounts part).sum = e.amount)))

/-- The inputs that are to be linked. -/
def inputsToLink (data : List Dataset) : List (Dataset × Exchange) :=
  data.flatMap fun ds => if ds.type = .marketGroup then [] else
    (ds.exchanges.filter fun e => decide (e.type = .fromTechnosphere ∧ (e.code = none ∨ e.code = some ""))).map fun e => (ds, e)

end Spec

theorem useMarketsD_lines {M : MathEnv} {ds : Dataset} {st st' : LinkState} {e : Exchange} {i : ℕ} {chosen : List Dataset} {lines : List Line}
    (h : useMarketsD M ds st e i chosen = .ok (lines, st')) : InputLines ds e lines := by
  rcases chosen with _ | ⟨a, _ | ⟨b, l⟩⟩
  · cases h; exact ⟨by simp, .inl rfl⟩
  · obtain ⟨rfl, -⟩ := C133_complete h
    exact ⟨by simp, .inr (.inl ⟨_, _, rfl⟩)⟩
  · obtain ⟨h1, h2, h3⟩ := C133_several h
    refine ⟨?_, .inr (.inr ⟨by rw [h1]; simp, ?_, ?_⟩)⟩
    · unfold useMarketsD at h
      simp only at h
      obtain ⟨r, hr, h⟩ := bind_eq_ok.mp h
      obtain ⟨rfl, rfl⟩ := Prod.mk.inj (Except.ok.inj h)
      intro x hx
      rcases List.mem_append.mp hx with hx | hx
      · obtain ⟨s, -, rfl⟩ := List.mem_map.mp hx
        exact ⟨rfl, rfl, rfl⟩
      · unfold splitInputD at hr
        obtain ⟨vols, -, hr⟩ := bind_eq_ok.mp hr
        split at hr
        · cases hr; cases hx
        · simp only [epure] at hr
          obtain ⟨new, -, hr⟩ := bind_eq_ok.mp hr
          cases hr
          rcases List.mem_cons.mp hx with rfl | hx
          · exact ⟨rfl, rfl, rfl⟩
          · exact created_about _ _ _ _ x hx
    · rw [h1]
      intro c hc
      obtain ⟨m, -, rfl⟩ := List.mem_map.mp hc
      rfl
    · by_cases h0 : ((a :: b :: l).map fun m => (productionVolume m).getD 0).sum = 0
      · exact .inl (h2 h0).2
      · obtain ⟨new, -, h4, h5⟩ := h3 h0
        exact .inr (by rw [h4, h5])

theorem linkConsumerD_lines {M : MathEnv} {T : Topology} {data : List Dataset} {cand cand' : Option (List Dataset)} {ds ds' : Dataset} {lines : List Line}
    (h : linkConsumerD M T data cand ds = .ok (cand', lines, ds')) :
    ∃ parts : List (List Line), lines = parts.flatten ∧ List.Forall₂ (fun p part => InputLines p.1 p.2 part) (inputsToLink [ds]) parts := by
  unfold linkConsumerD at h
  unfold inputsToLink
  rw [List.flatMap_cons, List.flatMap_nil, List.append_nil]
  split at h
  · next hg => cases h; rw [if_pos hg]; exact ⟨[], rfl, .nil⟩
  · next hg =>
    rw [if_neg hg]
    obtain ⟨crow, -, h⟩ := bind_eq_ok.mp h
    obtain ⟨st, hst, h⟩ := bind_eq_ok.mp h
    cases h
    have hinv := foldE_inv' (I := fun pre (st : List Line × LinkState) => ∃ parts : List (List Line), st.1 = parts.flatten ∧
      List.Forall₂ (fun (p : Exchange × ℕ) part => InputLines ds p.1 part) pre parts) hst ⟨[], rfl, .nil⟩ (by
        rintro pre p post s s' - ⟨parts, h1, h2⟩ hs
        unfold linkInputD at hs
        obtain ⟨c, -, hs⟩ := bind_eq_ok.mp hs
        obtain ⟨ch, -, hs⟩ := bind_eq_ok.mp hs
        obtain ⟨r, hr, hs⟩ := bind_eq_ok.mp hs
        cases hs
        exact ⟨parts ++ [r.1], by simp [h1], List.rel_append h2 (.cons (useMarketsD_lines hr) .nil)⟩)
    obtain ⟨parts, h1, h2⟩ := hinv
    refine ⟨parts, h1, ?_⟩
    rw [List.forall₂_map_left_iff]
    have hz : (ds.exchanges.zipIdx.filter fun p => isUnlinked p.1).map (·.1) = ds.exchanges.filter fun e => decide (e.type = .fromTechnosphere ∧ (e.code = none ∨ e.code = some "")) := by
      have : (fun e : Exchange => decide (e.type = .fromTechnosphere ∧ (e.code = none ∨ e.code = some ""))) = isUnlinked := by
        funext e
        rw [Bool.eq_iff_iff, decide_eq_true_iff, isUnlinked_iff]
        rfl
      have hf := List.filter_map (f := fun p : Exchange × ℕ => p.1) (p := isUnlinked) (l := ds.exchanges.zipIdx)
      rw [List.zipIdx_map_fst] at hf
      rw [this, hf]
      rfl
    rw [← hz, List.forall₂_map_left_iff]
    exact h2

/-- **C133**, `link_consumers_to_markets`: the lines are about the inputs that have no code, one input after the other. -/
theorem C133_consumer_lines {M : MathEnv} {T : Topology} {data out : List Dataset} {lines : List Line} (h : linkConsumersD M T data = .ok (lines, out)) :
    ∃ parts : List (List Line), lines = parts.flatten ∧ List.Forall₂ (fun p part => InputLines p.1 p.2 part) (inputsToLink data) parts := by
  unfold linkConsumersD at h
  obtain ⟨-, -, h⟩ := bind_eq_ok.mp h
  obtain ⟨r, hr, h⟩ := bind_eq_ok.mp h
  obtain ⟨rfl, -⟩ := Prod.mk.inj (Except.ok.inj h)
  clear h
  have main : ∀ (l : List Dataset) (cand : Option (List Dataset)) (r : List (List Line × Dataset)), scanE (linkConsumerD M T data) cand l = .ok r →
      ∃ parts : List (List Line), r.flatMap (·.1) = parts.flatten ∧ List.Forall₂ (fun p part => InputLines p.1 p.2 part) (inputsToLink l) parts := by
    intro l
    induction l with
    | nil => intro cand r hr; cases hr; exact ⟨[], rfl, .nil⟩
    | cons a l ih =>
      intro cand r hr
      simp only [scanE] at hr
      obtain ⟨x, hx, hr⟩ := bind_eq_ok.mp hr
      obtain ⟨y, hy, hr⟩ := bind_eq_ok.mp hr
      cases hr
      obtain ⟨p1, h1, h2⟩ := linkConsumerD_lines (cand' := x.1) (lines := x.2.1) (ds' := x.2.2) hx
      obtain ⟨p2, h3, h4⟩ := ih _ _ hy
      refine ⟨p1 ++ p2, by simp [h1, h3], ?_⟩
      have : inputsToLink (a :: l) = inputsToLink [a] ++ inputsToLink l := by simp [inputsToLink]
      rw [this]
      exact List.rel_append h2 h4
  exact main data none r hr

/-! ## Recalculation -/

/-- **C133**, `recalculate_all_parameterized_datasets`: a line for exactly those datasets that are in the table of the report, in order. -/
theorem C133_recalculated {M : MathEnv} {F : FormulaEnv} {ord : Dataset → Except Err (List String)} {data out : List Dataset} {table : List FailureRow}
    (h : recalculateAll M F ord data = (out, table, .ok ())) :
    (recalculateLines M F ord data).map (fun l => (l.function, l.id, l.filename, l.code)) =
        (data.filter fun ds => (recalculateO M F ord ds).toBool == false).map (fun ds => ("recalculate", ds.id, basename ds.filepath, ds.code)) ∧
      List.Forall₂ (fun ds l => ∃ e, recalculateO M F ord ds = .error e ∧ l.message = .recalculation e)
        (data.filter fun ds => (recalculateO M F ord ds).toBool == false) (recalculateLines M F ord data) := by
  induction data generalizing out table with
  | nil => exact ⟨rfl, .nil⟩
  | cons ds rest ih =>
    rw [recalculateAll] at h
    have hsame := same_recalculateS M F ord ds
    rcases agrees_recalculate M F ord ds with ⟨b, h1, h2⟩ | ⟨b, e, h1, h2⟩
    · rw [h2] at h
      simp only [Prod.mk.injEq] at h
      obtain ⟨rfl, rfl, hr⟩ := h
      have := ih (out := (recalculateAll M F ord rest).1) (table := (recalculateAll M F ord rest).2.1) (by rw [← hr])
      rw [List.filter_cons, if_neg (by rw [h1]; simp [Except.toBool])]
      simp only [recalculateLines, h2]
      exact this
    · rw [h2] at h hsame
      simp only at h hsame
      split at h
      swap
      · simp at h
      next hc =>
      split at h
      · simp at h
      next rp hrp =>
      simp only [Prod.mk.injEq] at h
      obtain ⟨rfl, rfl, hr⟩ := h
      obtain ⟨i1, i2⟩ := ih (out := (recalculateAll M F ord rest).1) (table := (recalculateAll M F ord rest).2.1) (by rw [← hr])
      have hb : b.id = ds.id ∧ b.filepath = ds.filepath ∧ b.code = ds.code := by
        rw [hsame.1]
        exact ⟨rfl, rfl, rfl⟩
      rw [List.filter_cons, if_pos (by rw [h1]; simp [Except.toBool])]
      simp only [recalculateLines, h2]
      rw [if_pos ⟨hc, by simp [hrp]⟩, List.map_cons, List.map_cons, i1]
      refine ⟨?_, .cons ⟨e, h1, rfl⟩ i2⟩
      simp [formatLine, hb.1, hb.2.1, hb.2.2]

/-! ## Examples -/

/-- An activity that is linked to by another and by itself. -/
def Spec.exampleTraced : List Dataset :=
  [{ name := "a", id := "1", location := "GLO", filepath := "/x/1.spold", type := .transforming, code := some "c1", refProduct := some "p",
     exchanges := [{ name := "p", unit := "kg", type := .referenceProduct, cls := some .allocatable, amount := 2, pv := some { amount := 10 } },
       { name := "p", type := .fromTechnosphere, amount := 1, activityLink := some "1" }] },
   { name := "b", id := "2", location := "CH", filepath := "/x/2.spold", type := .transforming, code := some "c2", refProduct := some "q",
     exchanges := [{ name := "q", type := .referenceProduct, cls := some .allocatable, amount := 1, pv := some { amount := 4 } },
       { name := "p", type := .fromTechnosphere, amount := 1 / 2, activityLink := some "1" }] }]

/-- A market with two suppliers of the same product. -/
def Spec.exampleTwoSuppliers (x y : String) : Dataset :=
  { name := "market for p", id := "m", location := "GLO", filepath := "/x/m.spold", type := .market, code := some "cm", refProduct := some "p",
    exchanges := [{ name := "p", type := .referenceProduct, cls := some .allocatable, amount := 1, pv := some { amount := 4 } }],
    suppliers := some [{ name := "p", type := .fromTechnosphere, amount := 0, unit := "kg", location := some "GLO", code := some x, pv := some { amount := 1 } }, { name := "p", type := .fromTechnosphere, amount := 0, unit := "kg", location := some "GLO", code := some y, pv := some { amount := 3 } }] }

/-- Two markets without production. -/
def Spec.exampleEmptyMarkets : List Dataset :=
  [{ name := "market for p", location := "CH", code := some "m1", exchanges := [{ name := "p", type := .referenceProduct, amount := 1, pv := some { amount := 0 } }] },
   { name := "market for p", location := "DE", code := some "m2", exchanges := [{ name := "p", type := .referenceProduct, amount := 1, pv := some { amount := 0 } }] }]

example : (addHardLinkedD exampleTraced).map (·.1) =
    .ok [⟨.selfLink 1 10, "add_hard_linked_production_volumes", "1", "1.spold", some "c1"⟩, ⟨.subtractLink 2 10 "b" "CH", "add_hard_linked_production_volumes", "1", "1.spold", some "c1"⟩] := by decide +kernel
example : (exampleTraced.map (·.id)).Nodup := by decide +kernel
example : ((addHardLinkedD exampleTraced).bind fun r => updateTransformingD r.2).map (·.1) =
    .ok [⟨.subtractVolume 2 10, "update_transforming_activity_production_volumes", "1", "1.spold", some "c1"⟩] := by decide +kernel
example : (labelMethodsD exampleTraced).map (fun r => r.1.map fun l => (l.message, l.id)) = .ok [(.method "single product", "1"), (.method "single product", "2")] := by decide +kernel
example : (actualizeD exampleTraced).map (fun r => r.1.map fun l => (l.message, l.id)) = .ok [(.linked "p" "a" "GLO", "1"), (.linked "p" "a" "GLO", "2")] := by decide +kernel
example : (relabelD exampleRow).map (fun r => r.1.map fun l => match l.message with | .restOfWorld name _ _ original regional => (name, original, regional) | _ => ("", 0, 0)) = .ok [("a", 100, 40)] := by decide +kernel
example : (allocateSuppliersD (exampleTwoSuppliers "s" "t")).map (fun r => r.1.map (·.message)) =
    .ok [.divided 4 "p" 2, .created (1 / 4) "kg" "p" "p" "GLO", .created (3 / 4) "kg" "p" "p" "GLO"] := by decide +kernel
/-- The suppliers are exchanged: other inputs, the same lines. -/
example : (allocateSuppliersD (exampleTwoSuppliers "s" "t")).map (·.1) = (allocateSuppliersD (exampleTwoSuppliers "t" "s")).map (·.1) ∧
    (allocateSuppliersD (exampleTwoSuppliers "s" "t")).map (fun r => r.2.exchanges) ≠ (allocateSuppliersD (exampleTwoSuppliers "t" "s")).map fun r => r.2.exchanges := by decide +kernel
example : (allocateAllD .market [exampleTwoSuppliers "s" "t"]).map (fun r => createdAmounts r.1) = .ok [1 / 4, 3 / 4] := by decide +kernel
example : (linkConsumersD flatEnv exampleWorld [exampleSeller .market "FR" 1, exampleSeller .market "DE" 3, exampleConsumer "RER" "p"]).map (fun r => (r.1.length, createdAmounts r.1)) = .ok (5, [5 / 2, 15 / 2]) := by
  decide +kernel
/-- An input that is said to be linked to two markets, and stays unlinked. -/
example : (useMarketsD sampleM { name := "use", id := "c" } { candidates := none, exchanges := [(some 0, { name := "p", type := .fromTechnosphere, amount := 1 })], suppliers := none } { name := "p", type := .fromTechnosphere, amount := 1 } 0 exampleEmptyMarkets).map
    (fun r => (r.1.map (·.message), decide (r.2.exchanges = [(some 0, { name := "p", type := .fromTechnosphere, amount := 1 })]))) = .ok ([.consumption "p" "p" "CH", .consumption "p" "p" "DE"], true) := by decide +kernel
example : (useMarketsD sampleM { name := "use", id := "c" } { candidates := none, exchanges := [(some 0, { name := "p", type := .fromTechnosphere, amount := 1 })], suppliers := none } { name := "p", type := .fromTechnosphere, amount := 1 } 0 (exampleEmptyMarkets.take 1)).map
    (fun r => (r.1.map (·.message), r.2.exchanges.map (·.2.code))) = .ok ([.complete "p" 1 "market for p" "CH"], [some "m1"]) := by decide +kernel

end Ocelot
