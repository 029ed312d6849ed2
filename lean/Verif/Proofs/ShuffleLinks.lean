import Verif.Proofs.ShuffleMarkets

/-! Volumes of market groups, deletions and links with suppliers in another order. -/

namespace Ocelot
open Spec

/-! ## Lists -/

theorem zipIdx_rel {α β : Type} {R : α → β → Prop} {l : List α} {l' : List β} (h : List.Forall₂ R l l') (k : ℕ) :
    List.Forall₂ (fun p p' => R p.1 p'.1 ∧ p.2 = p'.2) (l.zipIdx k) (l'.zipIdx k) := by
  induction h generalizing k with
  | nil => exact .nil
  | cons h1 _ ih => exact .cons ⟨h1, rfl⟩ (ih (k + 1))

theorem orderedInsert_rel {α β : Type} {R : α → β → Prop} {r : α → α → Prop} {s : β → β → Prop} [DecidableRel r] [DecidableRel s]
    (hrs : ∀ a a' b b', R a a' → R b b' → (r a b ↔ s a' b')) {a : α} {a' : β} (ha : R a a') {l : List α} {l' : List β} (h : List.Forall₂ R l l') :
    List.Forall₂ R (l.orderedInsert r a) (l'.orderedInsert s a') := by
  induction h with
  | nil => exact .cons ha .nil
  | @cons b b' l l' h1 h2 ih =>
    rw [List.orderedInsert_cons, List.orderedInsert_cons]
    by_cases hc : r a b
    · rw [if_pos hc, if_pos ((hrs _ _ _ _ ha h1).mp hc)]
      exact .cons ha (.cons h1 h2)
    · rw [if_neg hc, if_neg (fun h0 => hc ((hrs _ _ _ _ ha h1).mpr h0))]
      exact .cons h1 ih

theorem insertionSort_rel {α β : Type} {R : α → β → Prop} {r : α → α → Prop} {s : β → β → Prop} [DecidableRel r] [DecidableRel s]
    (hrs : ∀ a a' b b', R a a' → R b b' → (r a b ↔ s a' b')) {l : List α} {l' : List β} (h : List.Forall₂ R l l') :
    List.Forall₂ R (l.insertionSort r) (l'.insertionSort s) := by
  induction h with
  | nil => exact .nil
  | cons h1 _ ih => rw [List.insertionSort_cons, List.insertionSort_cons]; exact orderedInsert_rel hrs h1 ih

theorem forall₂_any {α β : Type} {R : α → β → Prop} {l : List α} {l' : List β} (h : List.Forall₂ R l l') {p : α → Bool} {q : β → Bool}
    (hpq : ∀ a b, R a b → p a = q b) : l.any p = l'.any q := by
  induction h with
  | nil => rfl
  | cons h1 _ ih => rw [List.any_cons, List.any_cons, hpq _ _ h1, ih]

theorem forall₂_all {α β : Type} {R : α → β → Prop} {l : List α} {l' : List β} (h : List.Forall₂ R l l') {p : α → Bool} {q : β → Bool}
    (hpq : ∀ a b, R a b → p a = q b) : l.all p = l'.all q := by
  induction h with
  | nil => rfl
  | cons h1 _ ih => rw [List.all_cons, List.all_cons, hpq _ _ h1, ih]

theorem forall₂_getElem? {α β : Type} {R : α → β → Prop} {l : List α} {l' : List β} (h : List.Forall₂ R l l') (i : ℕ) : Option.Rel R l[i]? l'[i]? := by
  induction h generalizing i with
  | nil => exact .none
  | cons h1 _ ih =>
    cases i with
    | zero => exact .some h1
    | succ i => exact ih i

theorem forall₂_setBoth {α β : Type} {R : α → β → Prop} {l : List α} {l' : List β} (h : List.Forall₂ R l l') (i : ℕ) {a : α} {b : β} (hab : R a b) :
    List.Forall₂ R (l.set i a) (l'.set i b) := by
  induction h generalizing i with
  | nil => exact .nil
  | cons h1 h2 ih =>
    cases i with
    | zero => exact .cons hab h2
    | succ i => exact .cons h1 (ih i)

theorem forall₂_filterMap_rel {α β γ δ : Type} {R : α → β → Prop} {S : γ → δ → Prop} {l : List α} {l' : List β} (h : List.Forall₂ R l l')
    {f : α → Option γ} {g : β → Option δ} (hfg : ∀ a b, R a b → Option.Rel S (f a) (g b)) : List.Forall₂ S (l.filterMap f) (l'.filterMap g) := by
  induction h with
  | nil => exact .nil
  | @cons a b l l' h1 _ ih =>
    rw [List.filterMap_cons, List.filterMap_cons]
    have h2 := hfg _ _ h1
    cases ha : f a with
    | none => rw [ha] at h2; cases hb : g b with
      | none => exact ih
      | some y => rw [hb] at h2; cases h2
    | some x => rw [ha] at h2; cases hb : g b with
      | none => rw [hb] at h2; cases h2
      | some y => rw [hb] at h2; cases h2 with | some h3 => exact .cons h3 ih

theorem forall₂_mapTo {α β γ δ : Type} {R : α → β → Prop} {S : γ → δ → Prop} {l : List α} {l' : List β} (h : List.Forall₂ R l l')
    {f : α → γ} {g : β → δ} (hfg : ∀ a b, R a b → S (f a) (g b)) : List.Forall₂ S (l.map f) (l'.map g) := by
  induction h with
  | nil => exact .nil
  | cons h1 _ ih => exact .cons (hfg _ _ h1) ih

theorem code_inj {data : List Dataset} (hn : (data.map (·.code)).Nodup) {a b : Dataset} (ha : a ∈ data) (hb : b ∈ data) (hab : a.code = b.code) : a = b :=
  List.inj_on_of_nodup_map hn ha hb hab

/-! ## Deletions -/

theorem find_row_rel {l l' : List Dataset} (h : List.Forall₂ Shuffled l l') :
    Option.Rel Shuffled (l.find? fun ds => ds.location == "RoW") (l'.find? fun ds => ds.location == "RoW") := by
  induction h with
  | nil => exact .none
  | @cons a b l l' h1 _ ih =>
    rw [List.find?_cons, List.find?_cons, h1.location]
    split
    · exact .some h1
    · exact ih

theorem purgedOf_rel {l l' : List Dataset} (h : List.Forall₂ Shuffled l l') : Option.Rel Shuffled (purgedOf l) (purgedOf l') := by
  unfold purgedOf
  rw [h.length_eq]
  split
  · exact .none
  · have hf : Option.Rel Shuffled (l.find? fun ds => ds.location == "RoW") (l'.find? fun ds => ds.location == "RoW") := by
      exact find_row_rel h
    cases h1 : l.find? fun ds => ds.location == "RoW" with
    | none => rw [h1] at hf; cases h2 : l'.find? fun ds => ds.location == "RoW" with
      | none => exact .none
      | some y => rw [h2] at hf; cases hf
    | some x => rw [h1] at hf; cases h2 : l'.find? fun ds => ds.location == "RoW" with
      | none => rw [h2] at hf; cases hf
      | some y =>
        rw [h2] at hf
        cases hf with
        | some h3 =>
          simp only
          rw [h3.originalVolume]
          split
          · exact .some h3
          · exact .none

theorem purgedOf_mem {l : List Dataset} {d : Dataset} (h : purgedOf l = some d) : d ∈ l := by
  unfold purgedOf at h
  split at h
  · cases h
  · split at h
    · cases h
    · next row hr =>
      split at h
      · cases h; exact List.mem_of_find?_eq_some hr
      · cases h

theorem purge_mem {data : List Dataset} {p : Dataset → Bool} {l : List (String × Dataset)} (h : mapE withRefProduct (data.filter p) = .ok l) {d : Dataset}
    (hd : d ∈ (((groupBy (·.1) l).map fun g => g.2.map (·.2)).filterMap purgedOf)) : d ∈ data := by
  obtain ⟨g, hg, h1⟩ := List.mem_filterMap.mp hd
  obtain ⟨⟨k, g'⟩, hg', rfl⟩ := List.mem_map.mp hg
  obtain ⟨q, hq, rfl⟩ := List.mem_map.mp (purgedOf_mem h1)
  have hql : q ∈ l := by
    have := (groupBy_perm (fun p : String × Dataset => p.1) l).mem_iff.mp (List.mem_flatMap.mpr ⟨(k, g'), hg', hq⟩)
    exact this
  obtain ⟨x, hx, h2⟩ := mapE_mem h hql
  obtain ⟨r, -, h3⟩ := bind_eq_ok.mp h2
  cases h3
  exact (List.mem_filter.mp hx).1

theorem keeping_zeroPv (kind : DsType) : Keeping (deleteGlobalZeroPv kind) (deleteGlobalZeroPv kind) := by
  intro data data' out h ho
  unfold deleteGlobalZeroPv at ho ⊢
  obtain ⟨l, h1, h2⟩ := bind_eq_ok.mp ho
  have hf : List.Forall₂ Shuffled (data.filter fun ds => ds.type == kind) (data'.filter fun ds => ds.type == kind) :=
    forall₂_filter h.each fun a b hab => by rw [hab.type]
  obtain ⟨l', h1', hl⟩ := withRefProduct_rel hf h1
  rw [h1', ebind_ok]
  simp only at h2 ⊢
  cases h2
  have hpur : List.Forall₂ Shuffled (((groupBy (·.1) l).map fun g => g.2.map (·.2)).filterMap purgedOf)
      (((groupBy (·.1) l').map fun g => g.2.map (·.2)).filterMap purgedOf) := by
    refine forall₂_filterMap_rel (R := List.Forall₂ Shuffled) (forall₂_mapTo (groupBy_rel (fun _ _ hab => hab.1) hl) ?_) fun a b hab => purgedOf_rel hab
    exact fun a b hab => forall₂_mapTo hab.2 fun x y hxy => hxy.2
  refine ⟨_, rfl, ?_, (List.filter_sublist.map _).nodup h.nodup⟩
  have hall : List.Forall₂ (fun a b => a ∈ data ∧ b ∈ data' ∧ Shuffled a b) data data' := by
    have hb := (forall₂_with_mem (forall₂_with_mem h.each).flip).flip
    exact hb.imp fun a b hab => ⟨hab.2.1, hab.1, hab.2.2⟩
  refine (forall₂_filter hall ?_).imp fun a b hab => hab.2.2
  rintro a b ⟨ha, hb, hab⟩
  congr 1
  rw [Bool.eq_iff_iff, List.contains_iff_mem, List.contains_iff_mem]
  constructor
  · intro hm
    obtain ⟨b', hb', hr⟩ := forall₂_mem_left hpur hm
    have : b' = b := code_inj h.nodup' (purge_mem h1' hb') hb (by rw [hr.codeEq, hab.codeEq])
    exact this ▸ hb'
  · intro hm
    obtain ⟨a', ha', hr⟩ := forall₂_mem_right hpur hm
    have : a' = a := code_inj h.nodup (purge_mem h1 ha') ha (by rw [← hr.codeEq, hab.codeEq])
    exact this ▸ ha'

/-! ## Volumes of market groups -/

theorem positionsOf_eq (kind : DsType) {data data' : List Dataset} (h : List.Forall₂ Shuffled data data') : positionsOf kind data' = positionsOf kind data := by
  unfold positionsOf
  exact (forall₂_map_eq' (forall₂_filter (zipIdx_rel h 0) fun a b hab => by rw [hab.1.type]) fun a b hab => hab.2).symm

theorem groupOrder_eq (T : Topology) {data data' : List Dataset} (h : List.Forall₂ Shuffled data data') : groupOrder T data' = groupOrder T data := by
  unfold groupOrder
  have hs : ∀ o i, sizeRank o data' i = sizeRank o data i := by
    intro o i
    unfold sizeRank
    have := forall₂_getElem? h i
    cases h1 : data[i]? with
    | none => rw [h1] at this; cases h2 : data'[i]? with
      | none => rfl
      | some y => rw [h2] at this; cases this
    | some x => rw [h1] at this; cases h2 : data'[i]? with
      | none => rw [h2] at this; cases this
      | some y => rw [h2] at this; cases this with | some h3 => simp only [h3.location]
  have hl : (data'.filter fun ds => ds.type == .marketGroup).map (·.location) = (data.filter fun ds => ds.type == .marketGroup).map (·.location) :=
    locations_eq (forall₂_filter h fun a b hab => by rw [hab.type])
  rw [positionsOf_eq _ h, hl]
  simp only [hs]

theorem propagateVolume_code {c : Option String} {v : ℚ} {s s' : Exchange} (h : propagateVolume c v s = .ok s') : s'.code = s.code := by
  unfold propagateVolume at h
  obtain ⟨x, h1, h2⟩ := bind_eq_ok.mp h
  obtain ⟨y, h3, h4⟩ := bind_eq_ok.mp h2
  cases h4
  split <;> rfl

theorem updateGroupStep_rel {members : List ℕ} {st st' : List Dataset} (h : ShufD st st') (i : ℕ) {t : List Dataset} (ht : updateGroupStep members st i = .ok t) :
    ∃ t', updateGroupStep members st' i = .ok t' ∧ ShufD t t' := by
  unfold updateGroupStep at ht ⊢
  have hi := forall₂_getElem? h.each i
  cases h1 : st[i]? with
  | none =>
    rw [h1] at hi ht
    cases ht
    cases h2 : st'[i]? with
    | none => exact ⟨st', rfl, h⟩
    | some y => rw [h2] at hi; cases hi
  | some x =>
    rw [h1] at hi ht
    cases h2 : st'[i]? with
    | none => rw [h2] at hi; cases hi
    | some y =>
      rw [h2] at hi
      cases hi with
      | some hxy =>
        simp only at ht ⊢
        obtain ⟨x1, h3, h4⟩ := bind_eq_ok.mp ht
        obtain ⟨y1, h3', hx1, hc⟩ := updateMarketVolume_rel hxy h3
        rw [h3', ebind_ok, hx1.volume]
        obtain ⟨hlt, hget⟩ := List.getElem?_eq_some_iff.mp h1
        have hlt' : i < st'.length := by rw [← h.each.length_eq]; exact hlt
        have hset : ShufD (st.set i x1) (st'.set i y1) := by
          refine ⟨forall₂_setBoth h.each i hx1, ?_⟩
          rw [List.map_set, hc, ← hget]
          have : (st.map fun d => d.code).set i (st[i]).code = st.map fun d => d.code := by
            apply List.ext_getElem?
            intro j
            rw [List.getElem?_set]
            split
            · next hj => subst hj; simp [hlt]
            · rfl
          rw [this]
          exact h.nodup
        have hx1m : x1 ∈ st.set i x1 := List.mem_set hlt x1
        have hy1m : y1 ∈ st'.set i y1 := List.mem_set hlt' y1
        obtain ⟨t', h5, h6⟩ := mapE_rel (R := Shuffled) (f' := propagateTo members y1 ((productionVolume x1).getD 0)) (zipIdx_rel hset.each 0) h4 (by
          intro p p' hp hp' hpp z hz
          have hpm : p.1 ∈ st.set i x1 := by
            obtain ⟨a, b⟩ := p
            exact List.fst_mem_of_mem_zipIdx hp
          have hpm' : p'.1 ∈ st'.set i y1 := by
            obtain ⟨a, b⟩ := p'
            exact List.fst_mem_of_mem_zipIdx hp'
          have hne : p'.1 = y1 ↔ p.1 = x1 := by
            constructor
            · intro h7
              exact code_inj hset.nodup hpm hx1m (by rw [← hpp.1.codeEq, h7, hx1.codeEq])
            · intro h7
              exact code_inj hset.nodup' hpm' hy1m (by rw [hpp.1.codeEq, h7, hx1.codeEq])
          unfold propagateTo at hz ⊢
          rw [← hpp.2]
          split at hz
          · next hcnd =>
            rw [if_pos ⟨hcnd.1, fun h7 => hcnd.2 (hne.mp h7)⟩]
            obtain ⟨sup, h7, h8⟩ := bind_eq_ok.mp hz
            obtain ⟨sup1, h9, h10⟩ := bind_eq_ok.mp h8
            cases h10
            obtain ⟨sup', h7', hperm⟩ := shufS_getKey hpp.1.suppliers h7
            obtain ⟨sup1', h9', hperm'⟩ := mapE_perm hperm h9
            rw [h7', ebind_ok, hx1.codeEq, h9']
            refine ⟨_, rfl, ?_⟩
            have hpq := hpp.1
            obtain ⟨a, b, hinv⟩ := hpq.inv
            rw [hinv] at hpq ⊢
            refine ⟨rfl, hpq.exchanges, .some hperm', ?_, hpq.code⟩
            intro l hl s hs
            cases hl
            obtain ⟨s0, hs0, h11⟩ := mapE_mem h9 hs
            rw [propagateVolume_code h11]
            exact hpp.1.codes sup (getKey_eq_ok.mp h7) s0 hs0
          · next hcnd =>
            rw [if_neg (fun h7 => hcnd ⟨h7.1, fun h8 => h7.2 (hne.mpr h8)⟩)]
            cases hz
            exact ⟨_, rfl, hpp.1⟩)
        refine ⟨t', h5, h6, ?_⟩
        have hcodes : t.map (·.code) = (st.set i x1).zipIdx.map fun p => p.1.code := mapE_map_eq h4 (p := fun p : Dataset × ℕ => p.1.code) (q := fun d : Dataset => d.code) (by
          intro p _ z hz
          unfold propagateTo at hz
          split at hz
          · obtain ⟨sup, h7, h8⟩ := bind_eq_ok.mp hz
            obtain ⟨sup1, h9, h10⟩ := bind_eq_ok.mp h8
            cases h10
            rfl
          · cases hz; rfl)
        rw [hcodes]
        have : ((st.set i x1).zipIdx.map fun p => p.1.code) = (st.set i x1).map (·.code) := by
          rw [show (fun p : Dataset × ℕ => p.1.code) = (fun d : Dataset => d.code) ∘ Prod.fst from rfl, ← List.map_map, List.zipIdx_map_fst]
        rw [this]
        exact hset.nodup

theorem keeping_volumes (T : Topology) (kind : DsType) : Keeping (updateMarketProductionVolumes T kind) (updateMarketProductionVolumes T kind) := by
  intro data data' out h ho
  unfold updateMarketProductionVolumes at ho ⊢
  split at ho
  · next hk =>
    rw [if_pos hk, groupOrder_eq T h.each, positionsOf_eq _ h.each]
    obtain ⟨order, h1, h2⟩ := bind_eq_ok.mp ho
    rw [h1, ebind_ok]
    exact foldE_rel (R := ShufD) h h2 fun s s' a _ hs t ht => updateGroupStep_rel hs a ht
  · next hk =>
    rw [if_neg hk]
    refine keeping_each ?_ data data' out h ho
    intro d d' hd e he
    rw [hd.type]
    split at he
    · next ht => rw [if_pos ht]; exact updateMarketVolume_rel hd he
    · next ht => rw [if_neg ht]; cases he; exact ⟨_, rfl, hd, rfl⟩

/-! ## Market groups -/

theorem placesOf_rel {kind : DsType} {r : String} {data data' : List Dataset} (h : List.Forall₂ Shuffled data data') {m : List (String × Dataset)}
    (hm : placesOf kind r data = .ok m) :
    ∃ m', placesOf kind r data' = .ok m' ∧ List.Forall₂ (fun (g g' : String × Dataset) => g.1 = g'.1 ∧ Shuffled g.2 g'.2) m m' := by
  unfold placesOf at hm ⊢
  obtain ⟨l, h1, h2⟩ := bind_eq_ok.mp hm
  cases h2
  obtain ⟨l', h1', hl⟩ := withRefProduct_rel (forall₂_filter h (q := fun ds => ds.type == kind) fun a b hab => by rw [hab.type]) h1
  rw [h1', ebind_ok]
  refine ⟨_, rfl, byLocation_rel (forall₂_mapTo (forall₂_filter hl fun a b hab => by rw [hab.1]) fun a b hab => hab.2)⟩

theorem keys_eq {α : Type} {R : α → α → Prop} {m m' : List (String × α)} (h : List.Forall₂ (fun (g g' : String × α) => g.1 = g'.1 ∧ R g.2 g'.2) m m') :
    m'.map (·.1) = m.map (·.1) := (forall₂_map_eq' h fun _ _ hab => hab.1).symm

theorem candidateAt_rel {m m' g g' : List (String × Dataset)} (hm : List.Forall₂ (fun (g g' : String × Dataset) => g.1 = g'.1 ∧ Shuffled g.2 g'.2) m m')
    (hg : List.Forall₂ (fun (g g' : String × Dataset) => g.1 = g'.1 ∧ Shuffled g.2 g'.2) g g') {s : String} {d : Dataset} (h : candidateAt m g s = .ok d) :
    ∃ d', candidateAt m' g' s = .ok d' ∧ Shuffled d d' := by
  unfold candidateAt at h ⊢
  rw [keys_eq hm]
  split at h
  · next hc =>
    rw [if_pos hc]
    obtain ⟨d', h1, h2⟩ := lookup_rel hm (getKey_eq_ok.mp h)
    exact ⟨d', getKey_eq_ok.mpr h1, h2⟩
  · next hc =>
    rw [if_neg hc]
    obtain ⟨d', h1, h2⟩ := lookup_rel hg (getKey_eq_ok.mp h)
    exact ⟨d', getKey_eq_ok.mpr h1, h2⟩

theorem groupEntries_rel {l l' : List Dataset} (h : List.Forall₂ Shuffled l l') {r : List Exchange} (hr : groupEntries l = .ok r) :
    groupEntries l' = .ok r ∧ ∀ s ∈ r, s.code.getD "" ≠ "" := by
  unfold groupEntries at hr ⊢
  obtain ⟨k, h1, h2⟩ := bind_eq_ok.mp hr
  obtain ⟨k', h1', hk⟩ := mapE_rel (f' := withCode) (R := fun p p' => p.1 = p'.1 ∧ Shuffled p.2 p'.2) h h1 (by
    intro a a' _ _ haa b hb
    unfold withCode at hb ⊢
    rw [haa.codeEq]
    obtain ⟨c, h3, h4⟩ := bind_eq_ok.mp hb
    cases h4
    rw [h3]
    exact ⟨_, rfl, rfl, haa⟩)
  rw [h1', ebind_ok]
  have hs : List.Forall₂ (fun (p p' : String × Dataset) => p.1 = p'.1 ∧ Shuffled p.2 p'.2) (k.insertionSort fun a b => a.1 ≤ b.1) (k'.insertionSort fun a b => a.1 ≤ b.1) :=
    insertionSort_rel (fun a a' b b' ha hb => by rw [ha.1, hb.1]) hk
  obtain ⟨r', h5, h6⟩ := mapE_rel (f' := fun p : String × Dataset => supplierEntry p.2) (R := fun a b => a = b) hs h2 fun a a' _ _ haa b hb =>
    ⟨b, by rw [haa.2.entry]; exact hb, rfl⟩
  have : r = r' := by
    have := forall₂_map_eq' (p := fun a => a) (q := fun a => a) h6 fun a b hab => hab
    simpa using this
  subst this
  refine ⟨h5, ?_⟩
  intro s hsm
  obtain ⟨p, hp, h7⟩ := mapE_mem h2 hsm
  obtain ⟨p', -, hpp⟩ := forall₂_mem_left hs hp
  exact supplierEntry_code hpp.2 h7

theorem linkMarketGroup_rel {T : Topology} {data data' : List Dataset} (h : List.Forall₂ Shuffled data data') {r : String} {d d' e : Dataset} (hd : Shuffled d d')
    (he : linkMarketGroup T data r d = .ok e) : ∃ e', linkMarketGroup T data' r d' = .ok e' ∧ Shuffled e e' := by
  unfold linkMarketGroup at he ⊢
  obtain ⟨m, h1, h2⟩ := bind_eq_ok.mp he
  obtain ⟨g, h3, h4⟩ := bind_eq_ok.mp h2
  obtain ⟨row, h5, h6⟩ := bind_eq_ok.mp h4
  obtain ⟨ordered, h7, h8⟩ := bind_eq_ok.mp h6
  obtain ⟨found, h9, h10⟩ := bind_eq_ok.mp h8
  obtain ⟨chosen, h11, h12⟩ := bind_eq_ok.mp h10
  obtain ⟨entries, h13, h14⟩ := bind_eq_ok.mp h12
  cases h14
  obtain ⟨m', h1', hm⟩ := placesOf_rel h h1
  obtain ⟨g', h3', hg⟩ := placesOf_rel h h3
  have h5' : T.marketsRow m' = .ok row := by
    unfold Topology.marketsRow at h5 ⊢
    rw [keys_eq hm]; exact h5
  have h9' : foldE (chooseStep T row m' d'.location) [] ordered = .ok found := by
    rw [hd.location]
    have : chooseStep T row m' d.location = chooseStep T row m d.location := by
      funext a b
      unfold chooseStep
      rw [keys_eq hm]
    rw [this]; exact h9
  have hrefl : List.Forall₂ (fun a b : String => a = b) found found := by
    exact List.forall₂_same.mpr fun _ _ => rfl
  obtain ⟨chosen', h11', hch⟩ := mapE_rel (f' := candidateAt m' g') (R := Shuffled) hrefl h11 fun a a' _ _ haa b hb => by
    subst haa; exact candidateAt_rel hm hg hb
  obtain ⟨h13', hcodes⟩ := groupEntries_rel hch h13
  rw [h1', ebind_ok, h3', ebind_ok, h5', ebind_ok, keys_eq hm, keys_eq hg, h7, ebind_ok, h9', ebind_ok, h11', ebind_ok, h13']
  refine ⟨_, rfl, ?_⟩
  obtain ⟨a, b, rfl⟩ := hd.inv
  refine ⟨rfl, hd.exchanges, ?_, ?_, hd.code⟩
  · show ShufS (if entries = [] then none else some entries) (if entries = [] then none else some entries)
    split
    · exact .none
    · exact .some (.refl _)
  · intro l hl s hs
    have hl : (if entries = [] then none else some entries) = some l := hl
    split at hl
    · cases hl
    · cases hl; exact hcodes s hs

theorem linkMarketGroup_code {T : Topology} {data : List Dataset} {r : String} {d e : Dataset} (he : linkMarketGroup T data r d = .ok e) : e.code = d.code := by
  unfold linkMarketGroup at he
  obtain ⟨m, h1, h2⟩ := bind_eq_ok.mp he
  obtain ⟨g, h3, h4⟩ := bind_eq_ok.mp h2
  obtain ⟨row, h5, h6⟩ := bind_eq_ok.mp h4
  obtain ⟨ordered, h7, h8⟩ := bind_eq_ok.mp h6
  obtain ⟨found, h9, h10⟩ := bind_eq_ok.mp h8
  obtain ⟨chosen, h11, h12⟩ := bind_eq_ok.mp h10
  obtain ⟨entries, h13, h14⟩ := bind_eq_ok.mp h12
  cases h14
  rfl

theorem checkGroupNames_rel {data data' : List Dataset} (h : List.Forall₂ Shuffled data data') {u : Unit} (hu : checkGroupNames data = .ok u) :
    checkGroupNames data' = .ok u := by
  unfold checkGroupNames at hu ⊢
  obtain ⟨l, h1, h2⟩ := bind_eq_ok.mp hu
  obtain ⟨l', h1', hl⟩ := withRefProduct_rel (forall₂_filter h (q := fun ds => ds.type == DsType.marketGroup) fun a b hab => by rw [hab.type]) h1
  rw [h1', ebind_ok]
  have hg := groupBy_rel (κ := String) (key := fun p : String × Dataset => p.1) (key' := fun p : String × Dataset => p.1) (fun _ _ hab => hab.1) hl
  have : ((groupBy (·.1) l).all fun g => (g.2.map fun p => p.2.name).dedup.length == 1) =
      (groupBy (·.1) l').all fun g => (g.2.map fun p => p.2.name).dedup.length == 1 := forall₂_all hg fun a b hab => by
    have : (a.2.map fun p => p.2.name) = b.2.map fun p => p.2.name := forall₂_map_eq' hab.2 fun x y hxy => hxy.2.name.symm
    rw [this]
  rw [← this]
  exact h2

theorem keeping_groupSuppliers (T : Topology) : Keeping (linkMarketGroupSuppliers T) (linkMarketGroupSuppliers T) := by
  intro data data' out h ho
  unfold linkMarketGroupSuppliers at ho ⊢
  obtain ⟨u, h1, h2⟩ := bind_eq_ok.mp ho
  rw [checkGroupNames_rel h.each h1, ebind_ok]
  have hsh : ∀ i d d', Shuffled d d' → isShadowed data' i d' = isShadowed data i d := by
    intro i d d' hd
    unfold isShadowed
    exact (forall₂_any (List.forall₂_drop (i + 1) h.each) fun a b hab => by rw [hab.type, hab.refProduct, hab.location, hd.refProduct, hd.location]).symm
  obtain ⟨out', h3, h4⟩ := mapE_rel (R := Shuffled) (f' := fun p : Dataset × ℕ =>
    if p.1.type = .marketGroup ∧ isShadowed data' p.2 p.1 = false then do
      let r ← getKey p.1.refProduct
      linkMarketGroup T data' r p.1
    else .ok p.1) (zipIdx_rel h.each 0) h2 (by
      intro p p' _ _ hpp z hz
      rw [hpp.1.type, ← hpp.2, hsh _ _ _ hpp.1, hpp.1.refProduct]
      split at hz
      · next hc =>
        rw [if_pos hc]
        obtain ⟨r, h5, h6⟩ := bind_eq_ok.mp hz
        rw [h5, ebind_ok]
        exact linkMarketGroup_rel h.each hpp.1 h6
      · next hc =>
        rw [if_neg hc]
        cases hz
        exact ⟨_, rfl, hpp.1⟩)
  refine ⟨out', h3, h4, ?_⟩
  have hcodes : out.map (·.code) = data.zipIdx.map fun p => p.1.code := mapE_map_eq h2 (p := fun p : Dataset × ℕ => p.1.code) (q := fun d : Dataset => d.code) (by
    intro p _ z hz
    split at hz
    · obtain ⟨r, h5, h6⟩ := bind_eq_ok.mp hz
      exact (linkMarketGroup_code h6).symm
    · cases hz; rfl)
  rw [hcodes, show (fun p : Dataset × ℕ => p.1.code) = (fun d : Dataset => d.code) ∘ Prod.fst from rfl, ← List.map_map, List.zipIdx_map_fst]
  exact h.nodup

end Ocelot
