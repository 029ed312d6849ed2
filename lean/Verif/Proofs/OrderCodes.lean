import Verif.Proofs.Order
import Verif.Proofs.PipelineBurden

/-! Two runs on the same datasets in another order, up to the codes. -/

namespace Ocelot
open Spec

/-! ## Datasets for recycled content -/

/-- If at most one element gives a nonempty list, the order does not matter. -/
theorem flatMap_one {α β : Type} {f : α → List β} {l l' : List α} (hp : l.Perm l') (h : ∀ a ∈ l, ∀ b ∈ l, f a ≠ [] → f b ≠ [] → a = b) :
    l.flatMap f = l'.flatMap f := by
  induction hp with
  | nil => rfl
  | cons a _ ih =>
    simp only [List.flatMap_cons]
    rw [ih fun x hx y hy => h x (by simp [hx]) y (by simp [hy])]
  | swap a b l =>
    simp only [List.flatMap_cons]
    by_cases ha : f a = []
    · simp [ha]
    · by_cases hb : f b = []
      · simp [hb]
      · rw [h a (by simp) b (by simp) ha hb]
  | trans h1 _ ih1 ih2 =>
    rw [ih1 h, ih2 fun x hx y hy => h x (h1.mem_iff.mpr hx) y (h1.mem_iff.mpr hy)]

theorem dictOf_getLast {β : Type} {key : β → String} {l : List β} {k : String} {v : β} :
    (k, v) ∈ dictOf key (fun a => a) l ↔ (l.filter fun a => key a == k).getLast? = some v := by
  rw [dictOf_mem]
  constructor
  · rintro ⟨l₁, a, l₂, rfl, hk, rfl, hl⟩
    have h2 : (l₂.filter fun a => key a == k) = [] := List.filter_eq_nil_iff.mpr (by simpa using hl)
    rw [List.filter_append, List.filter_cons, if_pos (by simpa using hk), h2]
    simp
  · intro h
    obtain ⟨ys, hy⟩ := List.getLast?_eq_some_iff.mp h
    obtain ⟨l₁, l₂, rfl, h1, h2⟩ := List.filter_eq_append_iff.mp hy
    rw [List.filter_eq_cons_iff] at h2
    obtain ⟨m₁, m₂, rfl, h3, h4, h5⟩ := h2
    refine ⟨l₁ ++ m₁, v, m₂, by simp, by simpa using h4, rfl, ?_⟩
    simpa using h5

theorem dictOf_values_perm {β : Type} {key : β → String} {l l' : List β} (h : ∀ k, (l.filter fun a => key a == k) = l'.filter fun a => key a == k) :
    ((dictOf key (fun a => a) l).map (·.2)).Perm ((dictOf key (fun a => a) l').map (·.2)) := by
  have hn : ∀ m : List β, (dictOf key (fun a => a) m).Nodup := fun m => .of_map _ (dictOf_nodup key (fun a => a) m)
  apply List.Perm.map
  rw [List.perm_ext_iff_of_nodup (hn l) (hn l')]
  rintro ⟨k, v⟩
  rw [dictOf_getLast, dictOf_getLast, h]

/-- Different datasets have no recyclable byproduct in common. -/
def OwnRecyclables (data : List Dataset) : Prop :=
  ∀ d ∈ data, ∀ d' ∈ data, ∀ e ∈ d.exchanges, ∀ e' ∈ d'.exchanges, e.type = .byproduct → e.cls = some .recyclable → e'.type = .byproduct →
    e'.cls = some .recyclable → e.name = e'.name → d = d'

theorem recyclable_true {e : Exchange} (h : isRecyclableByproduct e = .ok true) : e.type = .byproduct ∧ e.cls = some .recyclable := by
  unfold isRecyclableByproduct at h
  split at h
  · rename_i ht
    cases hc : e.cls with
    | none => rw [hc] at h; cases h
    | some c =>
      rw [hc] at h
      simp only [Except.ok.injEq, beq_iff_eq] at h
      exact ⟨ht, by rw [h]⟩
  · cases h

theorem newRecycled_name {d x : Dataset} {e : Exchange} (h : newRecycledContentDataset d e = .ok x) : x.name = e.name := by
  unfold newRecycledContentDataset at h
  obtain ⟨_, -, h⟩ := bind_eq_ok.mp h
  obtain ⟨_, -, h⟩ := bind_eq_ok.mp h
  obtain ⟨_, -, h⟩ := bind_eq_ok.mp h
  cases h
  rfl

theorem perm_recycledDatasets {l l' r : List Dataset} (ho : OwnRecyclables l) (hp : l.Perm l') (h : createRecycledContentDatasets l = .ok r) :
    ∃ r', createRecycledContentDatasets l' = .ok r' ∧ r.Perm r' := by
  unfold createRecycledContentDatasets at h ⊢
  obtain ⟨c, h1, h2⟩ := bind_eq_ok.mp h
  cases h2
  unfold recycledContentCandidates at h1 ⊢
  obtain ⟨bs, h3, rfl⟩ := flatMapE_ok_iff.mp h1
  let g : Dataset → List Dataset := fun d => ((filterE isRecyclableByproduct d.exchanges >>= fun recs => mapE (newRecycledContentDataset d) recs).toOption).getD []
  have hok : ∀ d ∈ l, (filterE isRecyclableByproduct d.exchanges >>= fun recs => mapE (newRecycledContentDataset d) recs) = .ok (g d) := by
    intro d hd
    obtain ⟨b, -, hb⟩ := forall₂_mem_left (mapE_ok_iff.mp h3) hd
    show _ = Except.ok (((_ : Except Err (List Dataset)).toOption).getD [])
    rw [hb]
    rfl
  have hall : ∀ m : List Dataset, (∀ d ∈ m, d ∈ l) → mapE (fun d : Dataset => filterE isRecyclableByproduct d.exchanges >>= fun recs => mapE (newRecycledContentDataset d) recs) m = .ok (m.map g) := by
    intro m hm
    rw [← mapE_pure]
    exact mapE_congr fun d hd => hok d (hm d hd)
  have e1 : bs = l.map g := Except.ok.inj (h3.symm.trans (hall l fun _ h => h))
  subst e1
  refine ⟨_, bind_eq_ok.mpr ⟨(l'.map g).flatten, flatMapE_ok_iff.mpr ⟨_, hall l' fun d hd => hp.mem_iff.mpr hd, rfl⟩, rfl⟩, hp.append ?_⟩
  apply dictOf_values_perm
  intro k
  rw [← List.flatMap_def, ← List.flatMap_def, List.filter_flatMap, List.filter_flatMap]
  apply flatMap_one hp
  intro a ha b hb hna hnb
  have hne : ∀ d ∈ l, (g d).filter (fun x => x.name == k) ≠ [] → ∃ e ∈ d.exchanges, e.type = .byproduct ∧ e.cls = some .recyclable ∧ e.name = k := by
    intro d hd hne
    obtain ⟨x, hx⟩ := List.exists_mem_of_ne_nil _ hne
    obtain ⟨hx, hxk⟩ := List.mem_filter.mp hx
    obtain ⟨recs, h5, h6⟩ := bind_eq_ok.mp (hok d hd)
    obtain ⟨e, he, hex⟩ := mapE_mem h6 hx
    obtain ⟨he, ht⟩ := filterE_mem h5 e he
    obtain ⟨h7, h8⟩ := recyclable_true ht
    exact ⟨e, he, h7, h8, by rw [← newRecycled_name hex]; simpa using hxk⟩
  obtain ⟨e, he, h1, h2, h3⟩ := hne a ha hna
  obtain ⟨e', he', h1', h2', h3'⟩ := hne b hb hnb
  exact ho a ha b hb e he e' he' h1 h2 h1' h2' (h3.trans h3'.symm)

/-! ## Rest-of-world datasets -/

/-- Datasets with the same name have the same type. -/
def NameType (data : List Dataset) : Prop := ∀ d ∈ data, ∀ d' ∈ data, d.name = d'.name → d.type = d'.type

theorem activityGroup_perm {l l' : List Dataset} (hp : l.Perm l') (d : Dataset) : (activityGroup l d).Perm (activityGroup l' d) := hp.filter _

theorem head_type {l : List Dataset} (hn : NameType l) {d : Dataset} (hd : d ∈ l) : (activityGroup l d).head?.map (·.type) = some d.type := by
  have hm : d ∈ activityGroup l d := List.mem_filter.mpr ⟨hd, decide_eq_true ⟨rfl, .refl _⟩⟩
  cases hg : activityGroup l d with
  | nil => rw [hg] at hm; cases hm
  | cons x t =>
    have hx : x ∈ activityGroup l d := by rw [hg]; simp
    obtain ⟨hx1, hx2⟩ := List.mem_filter.mp hx
    simp only [List.head?_cons, Option.map_some, Option.some.injEq]
    exact hn x hx1 d hd (of_decide_eq_true hx2).1

theorem relabelled_perm {l l' : List Dataset} (hn : NameType l) (hp : l.Perm l') {d : Dataset} (hd : d ∈ l) : Relabelled l d ↔ Relabelled l' d := by
  have hn' : NameType l' := fun a ha b hb => hn a (hp.mem_iff.mpr ha) b (hp.mem_iff.mpr hb)
  unfold Relabelled
  rw [head_type hn hd, head_type hn' (hp.mem_iff.mp hd), (activityGroup_perm hp d).length_eq]

theorem regionalSum_perm {g g' : List Dataset} (hp : g.Perm g') : regionalSum g = regionalSum g' := by
  unfold regionalSum
  exact ((hp.filter _).map _).sum_eq

theorem perm_relabel {l l' r : List Dataset} (hn : NameType l) (hp : l.Perm l') (h : relabelGlobalToRow l = .ok r) :
    ∃ r', relabelGlobalToRow l' = .ok r' ∧ r.Perm r' := by
  obtain ⟨rfl, hc, hr⟩ := relabel_inv h
  have hok : ∃ r', relabelGlobalToRow l' = .ok r' := by
    refine (C38_outcome l' (fun d hd => hc d (hp.mem_iff.mpr hd)) ?_).1 ?_
    · intro d hd hrl
      have hd' := hp.mem_iff.mpr hd
      exact (hr d hd' ((relabelled_perm hn hp hd').mpr hrl)).2
    · intro d hd hrl
      have hd' := hp.mem_iff.mpr hd
      rw [← ((activityGroup_perm hp d).filter _).length_eq]
      exact (hr d hd' ((relabelled_perm hn hp hd').mpr hrl)).1
  obtain ⟨r', h'⟩ := hok
  refine ⟨r', h', ?_⟩
  rw [(relabel_inv h').1]
  have : (l.map fun d => if Relabelled l d then asRow l d else d) = l.map fun d => if Relabelled l' d then asRow l' d else d := by
    apply List.map_congr_left
    intro d hd
    have he : asRow l d = asRow l' d := by
      unfold asRow
      rw [regionalSum_perm (activityGroup_perm hp d)]
    simp only [relabelled_perm hn hp hd, he]
  rw [this]
  exact hp.map _

/-! ## Codes -/

theorem perm_codes (lower md5 : String → String) : PermFn (addUniqueCodes lower md5) := by
  intro l l' r hp h
  unfold addUniqueCodes at h ⊢
  by_cases hn : (l.map (activityHash lower md5)).Nodup
  · rw [(addCodesFrom_spec _ l []).1 ⟨by simp, hn⟩] at h
    cases h
    exact ⟨_, (addCodesFrom_spec _ l' []).1 ⟨by simp, (hp.map _).nodup_iff.mp hn⟩, hp.map _⟩
  · rw [(addCodesFrom_spec _ l []).2 fun h => hn h.2] at h
    cases h

/-! ## The functions before the datasets for recycled content -/

/-- The dataset, perhaps without some of its exchanges. -/
structure Part (d d' : Dataset) : Prop where
  id : d'.id = d.id
  exchanges : ∀ e' ∈ d'.exchanges, ∃ e ∈ d.exchanges, e'.type = e.type ∧ e'.cls = e.cls ∧ e'.name = e.name

theorem Part.refl (d : Dataset) : Part d d := ⟨rfl, fun e he => ⟨e, he, rfl, rfl, rfl⟩⟩

theorem Part.trans {a b c : Dataset} (h : Part a b) (h' : Part b c) : Part a c := by
  refine ⟨h'.id.trans h.id, fun e he => ?_⟩
  obtain ⟨x, hx, h1, h2, h3⟩ := h'.exchanges e he
  obtain ⟨y, hy, h4, h5, h6⟩ := h.exchanges x hx
  exact ⟨y, hy, h1.trans h4, h2.trans h5, h3.trans h6⟩

theorem Keeps.part {d d' : Dataset} (h : Keeps d d') : Part d d' := by
  refine ⟨h.id, fun e' he => ?_⟩
  obtain ⟨e, he, hk⟩ := forall₂_mem_right h.exchanges he
  exact ⟨e, he, hk.type, hk.cls, hk.name⟩

def Parts (f : List Dataset → Except Err (List Dataset)) : Prop := ∀ data out, f data = .ok out → List.Forall₂ Part data out

/-- The functions up to the production volumes. -/
def Step.isEarly : Step → Bool
  | .ensureIdsAreUnique | .copyOriginalExchangeId | .variableNamesAreUnique | .ensureMarketsOneProduct | .ensureMarketsNoOwnConsumption
  | .fixSpecificIssues | .replaceImplicitReferences | .repairUncertainty | .fixKnownBadFormulas | .lowercaseParameters | .fixMathFormulas
  | .replaceReservedWords | .deleteUnparsableFormulas | .ensureVolumesGiven | .addPvToAllocatableByproducts | .createPvParameters
  | .removeConsequentialExchanges | .dropRpActivityLinks | .dropZeroAmountActivityLinks | .updateParentChild | .fix35ActivityLinks
  | .checkActivityLinkValidity | .addHardLinkedVolumes | .updateTransformingVolumes => true
  | _ => false

theorem PermFn.ids {f : List Dataset → Except Err (List Dataset)} (h : PermFn f) : PermIds f := fun l l' r _ hp hr => h l l' r hp hr

theorem early_perm (P : PipelineEnv) {s : Step} (hs : s.isEarly = true) : ∃ g, s.run P = onDatasets g ∧ PermIds g := by
  cases s <;> first | cases hs | skip
  · exact ⟨_, rfl, perm_ids.ids⟩
  · exact ⟨_, rfl, (perm_map _).ids⟩
  · exact ⟨_, rfl, perm_variables.ids⟩
  · exact ⟨_, rfl, perm_oneProduct.ids⟩
  · exact ⟨_, rfl, perm_ownConsumption.ids⟩
  · exact ⟨_, rfl, (perm_map _).ids⟩
  · exact ⟨_, rfl, (perm_mapE _).ids⟩
  · exact ⟨_, rfl, (perm_mapE _).ids⟩
  · exact ⟨_, rfl, (perm_mapE _).ids⟩
  · exact ⟨_, rfl, (perm_mapE _).ids⟩
  · exact ⟨_, rfl, (perm_mapE _).ids⟩
  · exact ⟨_, rfl, (perm_mapE _).ids⟩
  · exact ⟨_, rfl, (perm_mapE _).ids⟩
  · exact ⟨_, rfl, perm_volumes.ids⟩
  · exact ⟨_, rfl, (perm_mapE _).ids⟩
  · exact ⟨_, rfl, (perm_map _).ids⟩
  · exact ⟨_, rfl, (perm_map _).ids⟩
  · exact ⟨_, rfl, (perm_map _).ids⟩
  · exact ⟨_, rfl, (perm_map _).ids⟩
  · exact ⟨_, rfl, (perm_mapE _).ids⟩
  · exact ⟨_, rfl, (perm_map _).ids⟩
  · exact ⟨_, rfl, perm_linkCheck⟩
  · exact ⟨_, rfl, perm_hardLinks⟩
  · exact ⟨_, rfl, (perm_mapE _).ids⟩

theorem part_filter (p : Exchange → Bool) (d : Dataset) : Part d { d with exchanges := d.exchanges.filter p } :=
  ⟨rfl, fun e he => ⟨e, (List.mem_filter.mp he).1, rfl, rfl, rfl⟩⟩

theorem parts_map {g : Dataset → Dataset} (h : ∀ d, Part d (g d)) : Parts (fun data => .ok (data.map g)) := by
  intro data out ho
  cases ho
  exact List.forall₂_map_right_iff.mpr (List.forall₂_same.mpr fun d _ => h d)

theorem early_parts (P : PipelineEnv) {s : Step} (hs : s.isEarly = true) : ∃ g, s.run P = onDatasets g ∧ Parts g := by
  by_cases hk : s.keepsFlows = true
  · obtain ⟨g, hg, h⟩ := step_keeps P s hk
    exact ⟨g, hg, fun data out ho => (h data out ho).imp fun _ _ => Keeps.part⟩
  · cases s <;> first | (exact Bool.noConfusion hs) | exact absurd rfl hk | skip
    · refine ⟨_, rfl, parts_map fun d => ?_⟩
      unfold fixSpecificIssues
      split
      · exact part_filter _ d
      · exact .refl d
    · refine ⟨_, rfl, parts_map fun d => part_filter _ d⟩

theorem parts_ids {l r : List Dataset} (h : List.Forall₂ Part l r) : r.map (·.id) = l.map (·.id) := by
  induction h with
  | nil => rfl
  | cons h _ ih => rw [List.map_cons, List.map_cons, ih, h.id]

theorem onDatasets_inj {f g : List Dataset → Except Err (List Dataset)} (h : onDatasets f = onDatasets g) {l r : List Dataset} (hf : f l = .ok r) : g l = .ok r := by
  have : onDatasets g (l.map .ds) = .ok (r.map .ds) := by rw [← h]; exact onDatasets_map.mpr ⟨r, hf, rfl⟩
  obtain ⟨r', h1, h2⟩ := onDatasets_map.mp this
  rw [h1, List.map_injective_iff.mpr (fun x y hxy => by cases hxy; rfl) h2]

theorem early_run (P : PipelineEnv) {steps : List Step} (hs : ∀ s ∈ steps, s.isEarly = true) {l l' : List Dataset} (hn : (l.map (·.id)).Nodup) (hp : l.Perm l')
    {out : List Item} (h : foldE (fun d (s : Step) => s.run P d) (l.map .ds) steps = .ok out) :
    ∃ r r', out = r.map .ds ∧ foldE (fun d (s : Step) => s.run P d) (l'.map .ds) steps = .ok (r'.map .ds) ∧ r.Perm r' ∧ List.Forall₂ Part l r := by
  induction steps generalizing l l' with
  | nil => cases h; exact ⟨l, l', rfl, rfl, hp, List.forall₂_same.mpr fun d _ => .refl d⟩
  | cons s steps ih =>
    simp only [foldE] at h ⊢
    obtain ⟨mid, h1, h2⟩ := bind_eq_ok.mp h
    obtain ⟨g, e1, hg⟩ := early_perm P (hs s (by simp))
    obtain ⟨g', e2, hg'⟩ := early_parts P (hs s (by simp))
    rw [e1] at h1 ⊢
    obtain ⟨m, h3, rfl⟩ := onDatasets_map.mp h1
    obtain ⟨m', h4, h5⟩ := hg l l' m hn hp h3
    have h6 := hg' l m (onDatasets_inj (e1.symm.trans e2) h3)
    obtain ⟨r, r', rfl, h7, h8, h9⟩ := ih (fun x hx => hs x (by simp [hx])) (by rw [parts_ids h6]; exact hn) h5 h2
    exact ⟨r, r', rfl, bind_eq_ok.mpr ⟨_, onDatasets_map.mpr ⟨m', h4, rfl⟩, h7⟩, h8, forall₂_trans' h6 h9 fun _ _ _ => Part.trans⟩

/-- No recyclable byproduct of two given datasets has the same name. -/
def OwnById (data : List Dataset) : Prop :=
  ∀ d ∈ data, ∀ d' ∈ data, ∀ e ∈ d.exchanges, ∀ e' ∈ d'.exchanges, e.type = .byproduct → e.cls = some .recyclable → e'.type = .byproduct →
    e'.cls = some .recyclable → e.name = e'.name → d.id = d'.id

theorem eq_of_id {l : List Dataset} (hn : (l.map (·.id)).Nodup) {a b : Dataset} (ha : a ∈ l) (hb : b ∈ l) (h : a.id = b.id) : a = b :=
  List.inj_on_of_nodup_map hn ha hb h

theorem own_of {data r : List Dataset} (ho : OwnById data) (hn : (data.map (·.id)).Nodup) (h : List.Forall₂ Part data r) : OwnRecyclables r := by
  intro d hd d' hd' e he e' he' h1 h2 h3 h4 h5
  obtain ⟨x, hx, hxd⟩ := forall₂_mem_right h hd
  obtain ⟨x', hx', hxd'⟩ := forall₂_mem_right h hd'
  obtain ⟨y, hy, h6, h7, h8⟩ := hxd.exchanges e he
  obtain ⟨y', hy', h9, h10, h11⟩ := hxd'.exchanges e' he'
  refine eq_of_id (by rw [parts_ids h]; exact hn) hd hd' ?_
  rw [hxd.id, hxd'.id]
  exact ho x hx x' hx' y hy y' hy' (h6.symm.trans h1) (h7.symm.trans h2) (h9.symm.trans h3) (h10.symm.trans h4) (h8.symm.trans (h5.trans h11))

theorem append_inj_left {a b c : String} (h : a ++ c = b ++ c) : a = b := by
  have := congrArg String.toList h
  rw [String.toList_append, String.toList_append] at this
  exact String.toList_inj.mp (List.append_cancel_right this)

theorem own_rename {l r : List Dataset} (ho : OwnRecyclables l) (h : renameRecyclableContentExchanges l = .ok r) : OwnRecyclables r := by
  unfold renameRecyclableContentExchanges at h
  intro d hd d' hd' e he e' he' h1 h2 h3 h4 h5
  have back : ∀ d ∈ r, ∀ e ∈ d.exchanges, e.type = .byproduct → e.cls = some .recyclable → ∃ x ∈ l, (do
      let ex ← mapE renameRecyclable x.exchanges
      return { x with exchanges := ex }) = Except.ok (ε := Err) d ∧ ∃ y ∈ x.exchanges, y.type = .byproduct ∧ y.cls = some .recyclable ∧ e.name = y.name ++ rcString := by
    intro d hd e he h1 h2
    obtain ⟨x, hx, hxd⟩ := mapE_mem h hd
    refine ⟨x, hx, hxd, ?_⟩
    obtain ⟨ex, h3, h4⟩ := bind_eq_ok.mp hxd
    cases h4
    obtain ⟨y, hy, h5⟩ := mapE_mem h3 he
    refine ⟨y, hy, ?_⟩
    unfold renameRecyclable at h5
    obtain ⟨b, h6, h7⟩ := bind_eq_ok.mp h5
    cases h7
    cases b with
    | true =>
      obtain ⟨h8, h9⟩ := recyclable_true h6
      exact ⟨h8, h9, by simp⟩
    | false =>
      exfalso
      simp only [Bool.false_eq_true, if_false] at h1 h2
      unfold isRecyclableByproduct at h6
      rw [if_pos h1, h2] at h6
      exact absurd h6 (by decide)
  obtain ⟨x, hx, hxd, y, hy, h6, h7, h8⟩ := back d hd e he h1 h2
  obtain ⟨x', hx', hxd', y', hy', h6', h7', h8'⟩ := back d' hd' e' he' h3 h4
  have hnm : y.name = y'.name := by
    rw [h8, h8'] at h5
    exact append_inj_left h5
  have := ho x hx x' hx' y hy y' hy' h6 h7 h6' h7' hnm
  subst this
  exact Except.ok.inj (hxd.symm.trans hxd')

/-! ## The functions after that -/

def Step.isMiddle : Step → Bool
  | .renameRecyclable | .labelAllocationMethod | .allocate _ | .deleteAllocationMethod | .dropRpActivityLinks | .labelReferenceProduct
  | .deleteWhitelistedMarkets | .assignFakePv | .correctPipelineLocation | .checkNoRowMarketGroups | .addUniqueCodes => true
  | _ => false

theorem middle_perm (P : PipelineEnv) {s : Step} (hs : s.isMiddle = true) : PermItems (s.run P) := by
  cases s <;> first | cases hs | skip
  · exact permItems_on (perm_map _)
  · exact permItems_on (perm_mapE _)
  · exact permItems_on (perm_mapE _)
  · exact fun _ _ _ hp h => flatMapE_perm hp h
  · exact fun _ _ _ hp h => mapE_perm hp h
  · exact permItems_on (perm_mapE _)
  · exact permItems_on perm_whitelist
  · exact permItems_on (perm_mapE _)
  · exact permItems_on (perm_map _)
  · exact permItems_on perm_noRow
  · exact permItems_on (perm_codes _ _)

theorem middle_run (P : PipelineEnv) {steps : List Step} (hs : ∀ s ∈ steps, s.isMiddle = true) : PermItems fun items => foldE (fun d (s : Step) => s.run P d) items steps := by
  induction steps with
  | nil => intro l l' r hp h; cases h; exact ⟨l', rfl, hp⟩
  | cons s steps ih =>
    intro l l' r hp h
    simp only [foldE] at h ⊢
    obtain ⟨m, h1, h2⟩ := bind_eq_ok.mp h
    obtain ⟨m', h3, h4⟩ := middle_perm P (hs s (by simp)) l l' m hp h1
    obtain ⟨r', h5, h6⟩ := ih (fun x hx => hs x (by simp [hx])) m m' r h4 h2
    exact ⟨r', bind_eq_ok.mpr ⟨m', h3, h5⟩, h6⟩

theorem namesTypes_relabel {l r : List Dataset} (h : relabelGlobalToRow l = .ok r) : r.map (fun d => (d.name, d.type)) = l.map fun d => (d.name, d.type) := by
  rw [(relabel_inv h).1, List.map_map]
  apply List.map_congr_left
  intro d _
  simp only [Function.comp]
  split <;> rfl

theorem namesTypes_codes {lower md5 : String → String} {l r : List Dataset} (h : addUniqueCodes lower md5 l = .ok r) :
    r.map (fun d => (d.name, d.type)) = l.map fun d => (d.name, d.type) := by
  unfold addUniqueCodes at h
  by_cases hn : (l.map (activityHash lower md5)).Nodup
  · rw [(addCodesFrom_spec _ l []).1 ⟨by simp, hn⟩] at h
    cases h
    rw [List.map_map]
    rfl
  · rw [(addCodesFrom_spec _ l []).2 fun h => hn h.2] at h
    cases h

theorem nameType_congr {l r : List Dataset} (h : r.map (fun d => (d.name, d.type)) = l.map fun d => (d.name, d.type)) (hn : NameType r) : NameType l := by
  have hf : ∀ d ∈ l, ∃ x ∈ r, x.name = d.name ∧ x.type = d.type := by
    intro d hd
    have : (d.name, d.type) ∈ r.map fun d => (d.name, d.type) := by rw [h]; exact List.mem_map.mpr ⟨d, hd, rfl⟩
    obtain ⟨x, hx, he⟩ := List.mem_map.mp this
    exact ⟨x, hx, congrArg Prod.fst he, congrArg Prod.snd he⟩
  intro d hd d' hd' he
  obtain ⟨x, hx, h1, h2⟩ := hf d hd
  obtain ⟨x', hx', h1', h2'⟩ := hf d' hd'
  rw [← h2, ← h2']
  exact hn x hx x' hx' (by rw [h1, h1', he])

/-- Up to the codes, the cut-off model gives the same datasets for the same datasets. -/
theorem cutoff_codes_perm (P : PipelineEnv) {data data' coded : List Dataset} (hp : data.Perm data') (ho : OwnById data) (hn : NameType coded)
    (h : foldE (fun d (s : Step) => s.run P d) (data.map .ds) (cutoffBefore ++ [.addUniqueCodes]) = .ok (coded.map .ds)) :
    ∃ coded', foldE (fun d (s : Step) => s.run P d) (data'.map .ds) (cutoffBefore ++ [.addUniqueCodes]) = .ok (coded'.map .ds) ∧ coded.Perm coded' := by
  have hsplit : cutoffBefore ++ [Step.addUniqueCodes] = [.ensureIdsAreUnique] ++ ((cutoffBefore.drop 1).take 23 ++ ([.renameRecyclable] ++ ([.createRecycledContentDatasets] ++
      (((cutoffBefore.drop 26).take 16) ++ ([.relabelGlobalToRow] ++ [.checkNoRowMarketGroups, .addUniqueCodes]))))) := by decide +kernel
  rw [hsplit] at h ⊢
  have one : ∀ (s : Step) (g : List Dataset → Except Err (List Dataset)), s.run P = onDatasets g → ∀ (items : List Item) (out : List Item),
      foldE (fun d (s : Step) => s.run P d) items [s] = .ok out ↔ ∃ l r, items = l.map .ds ∧ g l = .ok r ∧ out = r.map .ds := by
    intro s g hg items out
    simp only [foldE, hg]
    constructor
    · intro h
      obtain ⟨m, h1, h2⟩ := bind_eq_ok.mp h
      cases h2
      obtain ⟨l, r, h3, h4, h5⟩ := onDatasets_ok h1
      exact ⟨l, r, h3, h4, h5⟩
    · rintro ⟨l, r, rfl, h1, rfl⟩
      exact bind_eq_ok.mpr ⟨_, onDatasets_map.mpr ⟨r, h1, rfl⟩, rfl⟩
  have inj : ∀ {a b : List Dataset}, a.map Item.ds = b.map Item.ds → a = b := fun h => List.map_injective_iff.mpr (fun x y hxy => by cases hxy; rfl) h
  obtain ⟨i1, h1, h⟩ := foldE_split.mp h
  obtain ⟨a, a1, ha, g1, hi1⟩ := (one _ _ rfl _ _).mp h1
  have := inj ha
  subst this
  have hids : (data.map (·.id)).Nodup ∧ a1 = data := by
    unfold ensureIdsAreUnique at g1
    split at g1
    · cases g1
    · rename_i hd
      cases g1
      refine ⟨?_, rfl⟩
      unfold distinctCount at hd
      have hl : (data.map (·.id)).dedup = data.map (·.id) :=
        (List.dedup_sublist (data.map fun d : Dataset => d.id)).eq_of_length (by simpa using hd)
      rw [← hl]
      exact List.nodup_dedup _
  obtain ⟨hids, ha1⟩ := hids
  subst ha1
  subst hi1
  obtain ⟨b1, k1, p1⟩ := perm_ids a1 data' a1 hp g1
  obtain ⟨i2, h2, h⟩ := foldE_split.mp h
  obtain ⟨a2, b2, rfl, k2, p2, parts⟩ := early_run P (by decide) hids p1 h2
  have own2 := own_of ho hids parts
  obtain ⟨i3, h3, h⟩ := foldE_split.mp h
  obtain ⟨x, a3, hx, h3', rfl⟩ := (one _ _ rfl _ _).mp h3
  have := inj hx
  subst this
  have own3 := own_rename own2 h3'
  obtain ⟨b3, k3, p3⟩ := mapE_perm p2 h3'
  obtain ⟨i4, h4, h⟩ := foldE_split.mp h
  obtain ⟨x4, a4, hx4, g4, rfl⟩ := (one _ _ rfl _ _).mp h4
  have := inj hx4
  subst this
  obtain ⟨b4, k4, p4⟩ := perm_recycledDatasets own3 p3 g4
  obtain ⟨i5, h5, h⟩ := foldE_split.mp h
  obtain ⟨j5, k5, p5⟩ := middle_run P (by decide) _ _ _ (p4.map Item.ds) h5
  obtain ⟨i6, h6, h7⟩ := foldE_split.mp h
  obtain ⟨a5, a6, rfl, g6, rfl⟩ := (one _ _ rfl _ _).mp h6
  obtain ⟨b5, rfl, q5⟩ := items_perm p5
  have hnt : NameType a5 := by
    simp only [foldE] at h7
    obtain ⟨m, h8, h9⟩ := bind_eq_ok.mp h7
    obtain ⟨m', h10, h11⟩ := bind_eq_ok.mp h9
    obtain ⟨x, y, hx, g8, rfl⟩ := onDatasets_ok h8
    have := inj hx
    subst this
    obtain ⟨x', z, hx', g10, rfl⟩ := onDatasets_ok h10
    have := inj hx'
    subst this
    have hz := inj (Except.ok.inj h11)
    subst hz
    unfold checkNoRowMarketGroups at g8
    split at g8
    · cases g8
    · cases g8
      exact nameType_congr (namesTypes_relabel g6) (nameType_congr (namesTypes_codes g10) hn)
  obtain ⟨b6, k6, p6⟩ := perm_relabel hnt q5 g6
  obtain ⟨j7, k7, p7⟩ := middle_run P (by decide) _ _ _ (p6.map Item.ds) h7
  obtain ⟨b7, rfl, q7⟩ := items_perm p7
  refine ⟨b7, ?_, q7⟩
  exact foldE_split.mpr ⟨_, (one _ _ rfl _ _).mpr ⟨_, _, rfl, k1, rfl⟩, foldE_split.mpr ⟨_, k2, foldE_split.mpr ⟨_, (one _ _ rfl _ _).mpr ⟨_, _, rfl, k3, rfl⟩,
    foldE_split.mpr ⟨_, (one _ _ rfl _ _).mpr ⟨_, _, rfl, k4, rfl⟩, foldE_split.mpr ⟨_, k5, foldE_split.mpr ⟨_, (one _ _ rfl _ _).mpr ⟨_, _, rfl, k6, rfl⟩, k7⟩⟩⟩⟩⟩⟩

end Ocelot
