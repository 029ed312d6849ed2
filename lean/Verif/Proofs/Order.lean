import Verif.Props.Reproducible

/-! Two runs on the same datasets in another order: the functions before codes are given. -/

namespace Ocelot
open Spec

/-! ## Loops -/

/-- A loop whose turns can be exchanged. -/
theorem foldE_swap {α σ : Type} {f : σ → α → Except Err σ} {I : σ → Prop} (hI : ∀ s a t, I s → f s a = .ok t → I t)
    (hc : ∀ s a b s1 s2, I s → f s a = .ok s1 → f s1 b = .ok s2 → ∃ s1', f s b = .ok s1' ∧ f s1' a = .ok s2)
    {l l' : List α} (hp : l.Perm l') {s t : σ} (hs : I s) (h : foldE f s l = .ok t) : foldE f s l' = .ok t := by
  induction hp generalizing s t with
  | nil => exact h
  | cons a _ ih =>
    simp only [foldE] at h ⊢
    obtain ⟨u, h1, h2⟩ := bind_eq_ok.mp h
    exact bind_eq_ok.mpr ⟨u, h1, ih (hI s a u hs h1) h2⟩
  | swap a b l =>
    simp only [foldE] at h ⊢
    obtain ⟨u, h1, h2⟩ := bind_eq_ok.mp h
    obtain ⟨v, h3, h4⟩ := bind_eq_ok.mp h2
    obtain ⟨u', h5, h6⟩ := hc s b a u v hs h1 h3
    exact bind_eq_ok.mpr ⟨u', h5, bind_eq_ok.mpr ⟨v, h6, h4⟩⟩
  | trans _ _ ih1 ih2 => exact ih2 hs (ih1 hs h)

theorem foldE_app {α σ : Type} (f : σ → α → Except Err σ) (l m : List α) (s : σ) :
    foldE f s (l ++ m) = foldE f s l >>= fun t => foldE f t m := by
  induction l generalizing s with
  | nil => rfl
  | cons a l ih =>
    simp only [List.cons_append, foldE]
    cases f s a with
    | error e => rfl
    | ok u => exact ih u

theorem foldE_flatMap {α β σ : Type} (f : σ → β → Except Err σ) (g : α → List β) (l : List α) (s : σ) :
    foldE (fun st a => foldE f st (g a)) s l = foldE f s (l.flatMap g) := by
  induction l generalizing s with
  | nil => rfl
  | cons a l ih =>
    simp only [foldE, List.flatMap_cons]
    rw [foldE_app]
    cases foldE f s (g a) with
    | error e => rfl
    | ok u => exact ih u

theorem forE_perm {α : Type} {f : α → Except Err Unit} {l l' : List α} (hp : l.Perm l') {u : Unit} (h : forE f l = .ok u) : forE f l' = .ok u :=
  forE_ok_iff.mpr fun a ha => forE_ok_iff.mp h a (hp.mem_iff.mpr ha)

/-- Two steps on lists, made element by element, that can be exchanged for each element can be exchanged. -/
theorem mapE_swap {α : Type} {f g : α → Except Err α} (hc : ∀ a b c, f a = .ok b → g b = .ok c → ∃ b', g a = .ok b' ∧ f b' = .ok c) {l r s : List α}
    (h1 : mapE f l = .ok r) (h2 : mapE g r = .ok s) : ∃ r', mapE g l = .ok r' ∧ mapE f r' = .ok s := by
  induction l generalizing r s with
  | nil => cases h1; cases h2; exact ⟨[], rfl, rfl⟩
  | cons a l ih =>
    obtain ⟨b, r1, e1, e2, rfl⟩ := mapE_cons_ok.mp h1
    obtain ⟨c, s1, e3, e4, rfl⟩ := mapE_cons_ok.mp h2
    obtain ⟨b', e5, e6⟩ := hc a b c e1 e3
    obtain ⟨r', e7, e8⟩ := ih e2 e4
    exact ⟨b' :: r', mapE_cons_ok.mpr ⟨b', r', e5, e7, rfl⟩, mapE_cons_ok.mpr ⟨c, s1, e6, e8, rfl⟩⟩

/-! ## Functions on lists of datasets -/

/-- The function gives the same datasets for the same datasets, in whatever order. -/
def PermFn (f : List Dataset → Except Err (List Dataset)) : Prop :=
  ∀ l l' r, l.Perm l' → f l = .ok r → ∃ r', f l' = .ok r' ∧ r.Perm r'

def PermItems (f : List Item → Except Err (List Item)) : Prop :=
  ∀ l l' r, l.Perm l' → f l = .ok r → ∃ r', f l' = .ok r' ∧ r.Perm r'

theorem items_perm {l : List Dataset} {items : List Item} (h : (l.map .ds).Perm items) : ∃ l' : List Dataset, items = l'.map .ds ∧ l.Perm l' := by
  have hall : ∀ i ∈ items, ∃ d, i = Item.ds d := by
    intro i hi
    obtain ⟨d, -, rfl⟩ := List.mem_map.mp (h.mem_iff.mpr hi)
    exact ⟨d, rfl⟩
  have : ∃ l' : List Dataset, items = l'.map .ds := by
    clear h
    induction items with
    | nil => exact ⟨[], rfl⟩
    | cons i items ih =>
      obtain ⟨d, rfl⟩ := hall i (by simp)
      obtain ⟨l', rfl⟩ := ih fun j hj => hall j (by simp [hj])
      exact ⟨d :: l', rfl⟩
  obtain ⟨l', rfl⟩ := this
  exact ⟨l', rfl, (List.map_perm_map_iff (fun x y hxy => by cases hxy; rfl)).mp h⟩

theorem permItems_on {f : List Dataset → Except Err (List Dataset)} (h : PermFn f) : PermItems (onDatasets f) := by
  intro l l' r hp hr
  obtain ⟨data, out, rfl, hf, rfl⟩ := onDatasets_ok hr
  obtain ⟨data', rfl, hp'⟩ := items_perm hp
  obtain ⟨out', h1, h2⟩ := h data data' out hp' hf
  exact ⟨out'.map .ds, onDatasets_map.mpr ⟨out', h1, rfl⟩, h2.map _⟩

theorem perm_mapE (g : Dataset → Except Err Dataset) : PermFn (mapE g) := fun _ _ _ hp h => mapE_perm hp h

theorem perm_map (g : Dataset → Dataset) : PermFn (fun d => .ok (d.map g)) := by
  intro l l' r hp h
  cases h
  exact ⟨l'.map g, rfl, hp.map g⟩

theorem perm_check {f : List Dataset → Except Err Unit} (hf : ∀ l l', l.Perm l' → f l = .ok () → f l' = .ok ()) :
    PermFn (fun data => f data >>= fun _ => .ok data) := by
  intro l l' r hp h
  obtain ⟨u, h1, h2⟩ := bind_eq_ok.mp h
  cases h2
  exact ⟨l', bind_eq_ok.mpr ⟨(), hf l l' hp h1, rfl⟩, hp⟩

/-- A function that looks at all datasets and changes none. -/
theorem perm_looks {α : Type} {f : List Dataset → Except Err α} (hf : ∀ l l', l.Perm l' → ∀ a, f l = .ok a → ∃ b, f l' = .ok b) :
    PermFn (fun data => f data >>= fun _ => .ok data) := by
  intro l l' r hp h
  obtain ⟨u, h1, h2⟩ := bind_eq_ok.mp h
  cases h2
  obtain ⟨b, hb⟩ := hf l l' hp u h1
  exact ⟨l', bind_eq_ok.mpr ⟨b, hb, rfl⟩, hp⟩

theorem perm_ids : PermFn ensureIdsAreUnique := by
  intro l l' r hp h
  unfold ensureIdsAreUnique at h ⊢
  split at h
  · cases h
  · rename_i hn
    cases h
    refine ⟨l', ?_, hp⟩
    have : distinctCount (l'.map (·.id)) = distinctCount (l.map (·.id)) := (((hp.map (fun d : Dataset => d.id)).dedup).length_eq).symm
    rw [this, ← hp.length_eq, if_neg hn]

theorem perm_oneProduct : PermFn ensureMarketsOneProduct :=
  perm_looks (f := fun data => forE checkOneReferenceProduct (data.filter fun ds => ds.type == .market)) fun _ _ hp _ h => ⟨_, forE_perm (hp.filter _) h⟩

theorem perm_ownConsumption : PermFn ensureMarketsNoOwnConsumption :=
  perm_looks (f := fun data => forE checkOwnConsumption (data.filter fun ds => ds.type == .market)) fun _ _ hp _ h => ⟨_, forE_perm (hp.filter _) h⟩

theorem perm_variables : PermFn variableNamesAreUnique :=
  perm_looks (f := fun data => forE (fun ds : Dataset => uniqueLoop (ds.numObjs.filter NumObj.isParam) []) data) fun _ _ hp _ h => ⟨_, forE_perm hp h⟩

theorem perm_volumes : PermFn ensureVolumesGiven :=
  perm_looks (f := fun data => forE checkVolumesGiven data) fun _ _ hp _ h => ⟨_, forE_perm hp h⟩

theorem perm_noRow : PermFn checkNoRowMarketGroups := by
  intro l l' r hp h
  unfold checkNoRowMarketGroups at h ⊢
  split at h
  · cases h
  · rename_i hn
    cases h
    refine ⟨l', ?_, hp⟩
    rw [if_neg]
    rw [List.any_eq_true] at hn ⊢
    rintro ⟨x, hx, hx'⟩
    exact hn ⟨x, hp.mem_iff.mpr hx, hx'⟩

theorem perm_whitelist : PermFn deleteWhitelistedMarkets := by
  intro l l' r hp h
  unfold deleteWhitelistedMarkets at h ⊢
  obtain ⟨m, h1, h2⟩ := bind_eq_ok.mp h
  cases h2
  obtain ⟨m', h3, -⟩ := mapE_perm (hp.filter _) h1
  exact ⟨_, bind_eq_ok.mpr ⟨m', h3, rfl⟩, hp.filter _⟩

/-! ## Dictionaries with different keys -/

theorem dictOf_lookup_iff {β : Type} {key : β → String} {l : List β} (hn : (l.map key).Nodup) (k : String) (b : β) :
    (dictOf key (fun a => a) l).lookup k = some b ↔ b ∈ l ∧ key b = k := by
  constructor
  · intro h
    obtain ⟨a, ha, hk, rfl⟩ := dictOf_mem_src (mem_of_lookup h)
    exact ⟨ha, hk⟩
  · rintro ⟨hb, rfl⟩
    apply lookup_of_mem (dictOf_nodup _ _ _)
    rw [dictOf_mem]
    obtain ⟨l₁, l₂, rfl⟩ := List.append_of_mem hb
    refine ⟨l₁, b, l₂, rfl, rfl, rfl, ?_⟩
    intro c hc hkc
    rw [List.map_append, List.map_cons, List.nodup_append] at hn
    exact (List.nodup_cons.mp hn.2.1).1 (List.mem_map.mpr ⟨c, hc, hkc⟩)

theorem dictOf_lookup_perm {β : Type} {key : β → String} {l l' : List β} (hn : (l.map key).Nodup) (hp : l.Perm l') (k : String) :
    (dictOf key (fun a => a) l').lookup k = (dictOf key (fun a => a) l).lookup k := by
  have hn' : (l'.map key).Nodup := (hp.map key).nodup_iff.mp hn
  cases h : (dictOf key (fun a => a) l).lookup k with
  | some b => exact (dictOf_lookup_iff hn' k b).mpr ((dictOf_lookup_iff hn k b).mp h |>.imp hp.mem_iff.mp fun x => x)
  | none =>
    cases h' : (dictOf key (fun a => a) l').lookup k with
    | none => rfl
    | some b =>
      have := (dictOf_lookup_iff hn k b).mpr ((dictOf_lookup_iff hn' k b).mp h' |>.imp hp.mem_iff.mpr fun x => x)
      rw [h] at this
      cases this

theorem dictOf_keys_perm {β : Type} {key : β → String} {l l' : List β} (hp : l.Perm l') :
    ((dictOf key (fun a => a) l).map (·.1)).Perm ((dictOf key (fun a => a) l').map (·.1)) := by
  rw [List.perm_ext_iff_of_nodup (dictOf_nodup _ _ _) (dictOf_nodup _ _ _)]
  intro k
  rw [dictOf_keys_mem, dictOf_keys_mem]
  constructor
  · rintro ⟨a, ha, h⟩; exact ⟨a, hp.mem_iff.mp ha, h⟩
  · rintro ⟨a, ha, h⟩; exact ⟨a, hp.mem_iff.mpr ha, h⟩

/-! ## Hard links, for datasets with different ids -/

def PermIds (f : List Dataset → Except Err (List Dataset)) : Prop :=
  ∀ l l' r, (l.map (·.id)).Nodup → l.Perm l' → f l = .ok r → ∃ r', f l' = .ok r' ∧ r.Perm r'

theorem perm_linkCheck : PermIds checkActivityLinkValidity := by
  intro l l' r hn hp h
  unfold checkActivityLinkValidity at h ⊢
  obtain ⟨u, h1, h2⟩ := bind_eq_ok.mp h
  cases h2
  refine ⟨l', bind_eq_ok.mpr ⟨(), ?_, rfl⟩, hp⟩
  have he : checkLink l' = checkLink l := by
    funext e
    unfold checkLink idMapping
    cases e.activityLink with
    | none => rfl
    | some i => simp only; rw [dictOf_lookup_perm hn hp]
  rw [he]
  exact forE_perm hp h1

def atId (i : String) (f : Dataset → Except Err Dataset) (d : Dataset) : Except Err Dataset := if d.id = i then f d else .ok d

theorem modifyLast_eq {i : String} {f : Dataset → Except Err Dataset} {l : List Dataset} (hn : (l.map (·.id)).Nodup) :
    modifyLast i f l = if i ∈ l.map (·.id) then mapE (atId i f) l else .error .keyError := by
  induction l with
  | nil => rfl
  | cons d l ih =>
    rw [List.map_cons, List.nodup_cons] at hn
    unfold modifyLast
    by_cases hm : i ∈ l.map (·.id)
    · have hany : l.any (fun x => x.id == i) = true := by
        rw [List.any_eq_true]
        obtain ⟨x, hx, hxi⟩ := List.mem_map.mp hm
        exact ⟨x, hx, by simpa using hxi⟩
      have hne : d.id ≠ i := fun h => hn.1 (h ▸ hm)
      rw [if_pos hany, ih hn.2, if_pos hm, if_pos (by simp [hm])]
      simp only [mapE, atId, if_neg hne]
      rfl
    · have hany : ¬ l.any (fun x => x.id == i) = true := by
        rw [List.any_eq_true]
        rintro ⟨x, hx, hxi⟩
        exact hm (List.mem_map.mpr ⟨x, hx, by simpa using hxi⟩)
      rw [if_neg hany]
      by_cases hd : d.id = i
      · have hrest : mapE (atId i f) l = .ok l := by
          have : mapE (atId i f) l = mapE (fun a => .ok a) l := mapE_congr fun a ha => by
            unfold atId
            rw [if_neg]
            exact fun h => hm (List.mem_map.mpr ⟨a, ha, h⟩)
          rw [this, mapE_pure (fun a => a), List.map_id']
        rw [if_pos hd, if_pos (by simp [hd])]
        simp only [mapE, atId, if_pos hd]
        rw [hrest]
        rfl
      · rw [if_neg hd, if_neg]
        simp only [List.map_cons, List.mem_cons, not_or]
        exact ⟨fun h => hd h.symm, hm⟩

/-- The links of a list of datasets, with the linking dataset. -/
def linksIn (data : List Dataset) : List (Dataset × Exchange) := data.flatMap fun d => d.exchanges.map fun e => (d, e)

theorem hardLinked_eq (data : List Dataset) :
    addHardLinkedProductionVolumes data = foldE (fun st (p : Dataset × Exchange) => hardLinkStep p.1 st p.2) data (linksIn data) := by
  unfold addHardLinkedProductionVolumes linksIn
  rw [← foldE_flatMap]
  congr 1
  funext st d
  induction d.exchanges generalizing st with
  | nil => rfl
  | cons e l ih =>
    simp only [List.map_cons, foldE]
    cases hardLinkStep d st e with
    | error e => rfl
    | ok u => exact ih u

theorem addToTarget_id {n : String} {a : ℚ} {s : Except Err ℚ} {d d' : Dataset} (h : addToTarget n a s d = .ok d') : d'.id = d.id := by
  unfold addToTarget at h
  obtain ⟨found, -, h⟩ := bind_eq_ok.mp h
  split at h
  · obtain ⟨s, -, h⟩ := bind_eq_ok.mp h
    obtain ⟨_, -, h⟩ := bind_eq_ok.mp h
    cases h
    rfl
  · cases h

theorem atId_id {i : String} {f : Dataset → Except Err Dataset} (hf : ∀ d d', f d = .ok d' → d'.id = d.id) {d d' : Dataset} (h : atId i f d = .ok d') : d'.id = d.id := by
  unfold atId at h
  split at h
  · exact hf _ _ h
  · cases h; rfl

theorem filterE_map {α β : Type} {p : α → Except Err Bool} {q : β → Except Err Bool} {b : β → α} (hp : ∀ x, p (b x) = q x) (l : List β) :
    filterE p (l.map b) = (filterE q l).map (List.map b) := by
  induction l with
  | nil => rfl
  | cons a l ih =>
    simp only [List.map_cons, filterE, hp, ih]
    cases q a with
    | error e => rfl
    | ok x =>
      cases filterE q l with
      | error e => rfl
      | ok r => cases x <;> rfl

/-- The effect of one link on an exchange of its target. -/
def bump (n : String) (v : ℚ) (x : Exchange) : Exchange := if isProductionNamed n x then { x with pv := x.pv.map (addSubtracted v) } else x

theorem bump_allocatable (n : String) (v : ℚ) (x : Exchange) : isAllocatable (bump n v x) = isAllocatable x := by
  unfold bump
  split <;> rfl

theorem bump_name (n : String) (v : ℚ) (x : Exchange) : (bump n v x).name = x.name := by
  unfold bump
  split <;> rfl

theorem bump_pv (n : String) (v : ℚ) (x : Exchange) : (bump n v x).pv.isSome = x.pv.isSome := by
  unfold bump
  split
  · simp
  · rfl

theorem bump_comm (n m : String) (v w : ℚ) (x : Exchange) : bump n v (bump m w x) = bump m w (bump n v x) := by
  have h : ∀ k u y, isProductionNamed k (bump u y x) = isProductionNamed k x := by
    intro k u y
    unfold isProductionNamed
    rw [bump_allocatable, bump_name]
  have hv : ∀ a b (p : PV), addSubtracted a (addSubtracted b p) = addSubtracted b (addSubtracted a p) := by
    intro a b p
    unfold addSubtracted
    simp only [Option.getD_some]
    congr 2
    ring
  rw [show bump n v (bump m w x) = if isProductionNamed n (bump m w x) then { bump m w x with pv := (bump m w x).pv.map (addSubtracted v) } else bump m w x from rfl,
    show bump m w (bump n v x) = if isProductionNamed m (bump n v x) then { bump n v x with pv := (bump n v x).pv.map (addSubtracted w) } else bump n v x from rfl, h, h]
  unfold bump
  cases h1 : isProductionNamed n x <;> cases h2 : isProductionNamed m x <;> simp
  congr 1
  funext p
  exact hv v w p

theorem addToTarget_ok {n : String} {a : ℚ} {s : Except Err ℚ} {d d' : Dataset} :
    addToTarget n a s d = .ok d' ↔ ∃ e v, productionNamed d n = .ok [e] ∧ s = .ok v ∧ e.pv.isSome = true ∧
      d' = { d with exchanges := d.exchanges.map (bump n (a * v)) } := by
  unfold addToTarget
  constructor
  · intro h
    obtain ⟨found, h1, h⟩ := bind_eq_ok.mp h
    split at h
    · rename_i e
      obtain ⟨v, h2, h⟩ := bind_eq_ok.mp h
      obtain ⟨p, h3, h⟩ := bind_eq_ok.mp h
      cases h
      exact ⟨e, v, h1, h2, by rw [getKey_eq_ok.mp h3]; rfl, rfl⟩
    · cases h
  · rintro ⟨e, v, h1, rfl, h3, rfl⟩
    obtain ⟨p, hp⟩ := Option.isSome_iff_exists.mp h3
    rw [h1, ebind_ok]
    simp only
    rw [ebind_ok, getKey_eq_ok.mpr hp, ebind_ok]
    rfl

theorem productionNamed_bump (d : Dataset) (n m : String) (v : ℚ) :
    productionNamed { d with exchanges := d.exchanges.map (bump m v) } n = (productionNamed d n).map (List.map (bump m v)) := by
  unfold productionNamed allocatableProduction
  rw [filterE_map (bump_allocatable m v)]
  cases filterE isAllocatable d.exchanges with
  | error e => rfl
  | ok r =>
    simp only [Except.map, ebind_ok]
    show Except.ok _ = Except.ok _
    congr 1
    rw [List.filter_map]
    congr 1
    apply List.filter_congr
    intro x _
    simp [bump_name]

theorem addToTarget_swap {n m : String} {a b : ℚ} {s t : Except Err ℚ} {d d1 d2 : Dataset} (h1 : addToTarget n a s d = .ok d1)
    (h2 : addToTarget m b t d1 = .ok d2) : ∃ d1', addToTarget m b t d = .ok d1' ∧ addToTarget n a s d1' = .ok d2 := by
  obtain ⟨e, v, e1, rfl, e3, rfl⟩ := addToTarget_ok.mp h1
  obtain ⟨e', w, e4, rfl, e6, rfl⟩ := addToTarget_ok.mp h2
  rw [productionNamed_bump] at e4
  cases hm : productionNamed d m with
  | error err => rw [hm] at e4; cases e4
  | ok r =>
    rw [hm] at e4
    simp only [Except.map, Except.ok.injEq] at e4
    obtain ⟨x, rfl⟩ : ∃ x, r = [x] := by
      rw [← List.length_eq_one_iff, ← List.length_map (bump n (a * v)), e4]
      rfl
    · have e5 : bump n (a * v) x = e' := by simpa using e4
      rw [← e5, bump_pv] at e6
      refine ⟨_, addToTarget_ok.mpr ⟨x, w, hm, rfl, e6, rfl⟩, addToTarget_ok.mpr ⟨bump m (b * w) e, v, ?_, rfl, by rw [bump_pv]; exact e3, ?_⟩⟩
      · rw [productionNamed_bump, e1]
        rfl
      · simp only [List.map_map]
        congr 1
        apply List.map_congr_left
        intro y _
        exact bump_comm _ _ _ _ _

theorem hardLinkStep_ids {d : Dataset} {st st' : List Dataset} {e : Exchange} (hn : (st.map (·.id)).Nodup) (h : hardLinkStep d st e = .ok st') :
    st'.map (·.id) = st.map (·.id) := by
  unfold hardLinkStep at h
  split at h
  · cases h; rfl
  · split at h
    · cases h; rfl
    · split at h
      · cases h; rfl
      · rw [modifyLast_eq hn] at h
        split at h
        · exact (mapE_map_eq h fun a _ b hb => (atId_id (fun _ _ => addToTarget_id) hb).symm)
        · cases h

/-- What one link does to each dataset, if its target exists. -/
theorem hardLinkStep_cases {p : Dataset × Exchange} {st st' : List Dataset} (hn : (st.map (·.id)).Nodup) (h : hardLinkStep p.1 st p.2 = .ok st') :
    (∀ st, hardLinkStep p.1 st p.2 = .ok st) ∧ st' = st ∨
    ∃ i, i ∈ st.map (·.id) ∧ mapE (atId i (addToTarget p.2.name p.2.amount (getBiggestPvRatio p.1))) st = .ok st' ∧
      ∀ s : List Dataset, (s.map (·.id)).Nodup → i ∈ s.map (·.id) →
        hardLinkStep p.1 s p.2 = mapE (atId i (addToTarget p.2.name p.2.amount (getBiggestPvRatio p.1))) s := by
  unfold hardLinkStep at h ⊢
  cases hl : p.2.activityLink with
  | none => rw [hl] at h; cases h; exact Or.inl ⟨fun _ => rfl, rfl⟩
  | some i =>
    rw [hl] at h
    simp only at h ⊢
    by_cases h1 : i = ""
    · rw [if_pos h1] at h; cases h; exact Or.inl ⟨fun _ => by rw [if_pos h1], rfl⟩
    · rw [if_neg h1] at h
      by_cases h2 : i = p.1.id
      · rw [if_pos h2] at h; cases h; exact Or.inl ⟨fun _ => by rw [if_neg h1, if_pos h2], rfl⟩
      · rw [if_neg h2, modifyLast_eq hn] at h
        split at h
        · rename_i hm
          refine Or.inr ⟨i, hm, h, ?_⟩
          intro s hs hi
          rw [if_neg h1, if_neg h2, modifyLast_eq hs, if_pos hi]
        · cases h

theorem hardLinkStep_swap {p q : Dataset × Exchange} {st s1 s2 : List Dataset} (hn : (st.map (·.id)).Nodup) (h1 : hardLinkStep p.1 st p.2 = .ok s1)
    (h2 : hardLinkStep q.1 s1 q.2 = .ok s2) : ∃ s1', hardLinkStep q.1 st q.2 = .ok s1' ∧ hardLinkStep p.1 s1' p.2 = .ok s2 := by
  have hi1 := hardLinkStep_ids hn h1
  have hn1 : (s1.map (·.id)).Nodup := hi1 ▸ hn
  rcases hardLinkStep_cases hn h1 with ⟨ha, rfl⟩ | ⟨i, hi, hm, ha⟩
  · exact ⟨s2, h2, ha s2⟩
  · rcases hardLinkStep_cases hn1 h2 with ⟨hb, rfl⟩ | ⟨j, hj, hm', hb⟩
    · exact ⟨st, hb st, h1⟩
    · obtain ⟨s1', h3, h4⟩ := mapE_swap (f := atId i (addToTarget p.2.name p.2.amount (getBiggestPvRatio p.1)))
        (g := atId j (addToTarget q.2.name q.2.amount (getBiggestPvRatio q.1))) (by
        intro a b c hab hbc
        have hid := atId_id (fun _ _ => addToTarget_id) hab
        unfold atId at hab hbc ⊢
        by_cases hai : a.id = i
        · rw [if_pos hai] at hab
          by_cases haj : b.id = j
          · rw [if_pos haj] at hbc
            obtain ⟨b', h5, h6⟩ := addToTarget_swap hab hbc
            exact ⟨b', by rw [if_pos (by rw [← hid]; exact haj)]; exact h5, by rw [if_pos (by rw [addToTarget_id h5]; exact hai)]; exact h6⟩
          · rw [if_neg haj] at hbc
            cases hbc
            exact ⟨a, by rw [if_neg (by rw [← hid]; exact haj)], by rw [if_pos hai]; exact hab⟩
        · rw [if_neg hai] at hab
          cases hab
          by_cases haj : a.id = j
          · rw [if_pos haj] at hbc
            exact ⟨c, by rw [if_pos haj]; exact hbc, by rw [if_neg (by rw [addToTarget_id hbc]; exact hai)]⟩
          · rw [if_neg haj] at hbc
            cases hbc
            exact ⟨a, by rw [if_neg haj], by rw [if_neg hai]⟩) hm hm'
      have hj' : j ∈ st.map (·.id) := hi1 ▸ hj
      have h5 : hardLinkStep q.1 st q.2 = .ok s1' := by rw [hb st hn hj']; exact h3
      have hi2 := hardLinkStep_ids hn h5
      exact ⟨s1', h5, by rw [ha s1' (hi2 ▸ hn) (hi2 ▸ hi)]; exact h4⟩

theorem hardLinkStep_perm {p : Dataset × Exchange} {st st' t : List Dataset} (hn : (st.map (·.id)).Nodup) (hp : st.Perm st') (h : hardLinkStep p.1 st p.2 = .ok t) :
    ∃ t', hardLinkStep p.1 st' p.2 = .ok t' ∧ t.Perm t' := by
  rcases hardLinkStep_cases hn h with ⟨ha, rfl⟩ | ⟨i, hi, hm, ha⟩
  · exact ⟨st', ha st', hp⟩
  · obtain ⟨t', h1, h2⟩ := mapE_perm hp hm
    exact ⟨t', by rw [ha st' ((hp.map _).nodup_iff.mp hn) ((hp.map (fun d : Dataset => d.id)).mem_iff.mp hi)]; exact h1, h2⟩

theorem perm_hardLinks : PermIds addHardLinkedProductionVolumes := by
  intro l l' r hn hp h
  rw [hardLinked_eq] at h ⊢
  have hlinks : (linksIn l).Perm (linksIn l') := hp.flatMap_right _
  have h1 := foldE_swap (f := fun st (p : Dataset × Exchange) => hardLinkStep p.1 st p.2) (I := fun st : List Dataset => (st.map (·.id)).Nodup) (fun s a t hs ht => by rw [hardLinkStep_ids hs ht]; exact hs)
    (fun s a b s1 s2 hs h1 h2 => hardLinkStep_swap hs h1 h2) hlinks hn h
  obtain ⟨r', h2, h3, -⟩ := foldE_rel (f' := fun st (p : Dataset × Exchange) => hardLinkStep p.1 st p.2) (R := fun s s' : List Dataset => s.Perm s' ∧ (s.map (·.id)).Nodup) ⟨hp, hn⟩ h1 fun s s' a _ hs t ht => by
    obtain ⟨t', h2, h3⟩ := hardLinkStep_perm hs.2 hs.1 ht
    exact ⟨t', h2, h3, by rw [hardLinkStep_ids hs.2 ht]; exact hs.2⟩
  exact ⟨r', h2, h3⟩

end Ocelot
