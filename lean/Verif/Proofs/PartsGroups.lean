import Verif.Proofs.PartsEnd

/-! The volumes of market groups are updated in each part separately. -/

namespace Ocelot
namespace Parts
open Spec

variable {c : Cut} {J : Option (String → Bool)}

/-! ## Sorting a part of a list -/

theorem orderedInsert_filter {α : Type} {r : α → α → Prop} [DecidableRel r] (htr : ∀ a b d, r a b → r b d → r a d) {p : α → Bool} {a : α} {l : List α} (hl : l.Pairwise r) :
    (l.orderedInsert r a).filter p = if p a then (l.filter p).orderedInsert r a else l.filter p := by
  induction l with
  | nil => cases h : p a <;> simp [h]
  | cons b l ih =>
    obtain ⟨hb, hl'⟩ := List.pairwise_cons.mp hl
    rw [List.orderedInsert_cons]
    cases hp : p a with
    | false =>
      have ih' := ih hl'
      rw [hp] at ih'
      simp only [Bool.false_eq_true, if_false] at ih' ⊢
      split
      · rw [List.filter_cons_of_neg (by simp [hp])]
      · rw [List.filter_cons, List.filter_cons, ih']
    | true =>
      have ih' := ih hl'
      rw [hp] at ih'
      simp only [if_true] at ih' ⊢
      split
      · next hab =>
        rw [List.filter_cons_of_pos hp]
        cases hf : (b :: l).filter p with
        | nil => rfl
        | cons x t =>
          have hx : x ∈ (b :: l).filter p := by rw [hf]; exact List.mem_cons_self
          have hax : r a x := by
            rcases List.mem_cons.mp (List.mem_filter.mp hx).1 with rfl | hx
            · exact hab
            · exact htr _ _ _ hab (hb x hx)
          rw [List.orderedInsert_cons, if_pos hax]
      · next hab =>
        cases hpb : p b with
        | true => rw [List.filter_cons_of_pos hpb, List.filter_cons_of_pos hpb, List.orderedInsert_cons, if_neg hab, ih']
        | false => rw [List.filter_cons_of_neg (by simp [hpb]), List.filter_cons_of_neg (by simp [hpb]), ih']

theorem insertionSort_filter {α : Type} {r : α → α → Prop} [DecidableRel r] (htot : ∀ a b, r a b ∨ r b a) (htr : ∀ a b d, r a b → r b d → r a d) (p : α → Bool) (l : List α) :
    (l.insertionSort r).filter p = (l.filter p).insertionSort r := by
  have : Std.Total r := ⟨htot⟩
  have : IsTrans α r := ⟨htr⟩
  induction l with
  | nil => rfl
  | cons a l ih =>
    rw [List.insertionSort_cons, orderedInsert_filter htr (List.pairwise_insertionSort r l), ih]
    cases hp : p a with
    | true => rw [if_pos rfl, List.filter_cons_of_pos hp, List.insertionSort_cons]
    | false => rw [if_neg (by simp), List.filter_cons_of_neg (by simp [hp])]

theorem insertionSort_congr {α : Type} {r s : α → α → Prop} [DecidableRel r] [DecidableRel s] {l : List α} (h : ∀ a ∈ l, ∀ b ∈ l, r a b ↔ s a b) :
    l.insertionSort r = l.insertionSort s := by
  have := List.map_insertionSort r s (fun a : α => a) l h
  simpa using this

theorem idxOf_filter {α : Type} [DecidableEq α] {p : α → Bool} {a b : α} (ha : p a = true) (hb : p b = true) (l : List α) :
    (l.filter p).idxOf a ≤ (l.filter p).idxOf b ↔ l.idxOf a ≤ l.idxOf b := by
  induction l with
  | nil => simp
  | cons x l ih =>
    cases hp : p x with
    | true =>
      rw [List.filter_cons_of_pos hp]
      by_cases hxa : x = a <;> by_cases hxb : x = b <;> simp_all [List.idxOf_cons]
    | false =>
      rw [List.filter_cons_of_neg (by simp [hp]), ih]
      have hxa : x ≠ a := by rintro rfl; rw [ha] at hp; cases hp
      have hxb : x ≠ b := by rintro rfl; rw [hb] at hp; cases hp
      simp [hxa, hxb]

theorem ordered_sub {T : Topology} {row : Option (Finset ℕ)} {l l' out : List String} (hs : ∀ s ∈ l', s ∈ l) (h : T.orderedDependencies l row = .ok out) :
    T.orderedDependencies l' row = .ok (out.filter fun s => decide (s ∈ l')) := by
  unfold Topology.orderedDependencies at h ⊢
  obtain ⟨keys, hk, h⟩ := bind_eq_ok.mp h
  cases h
  have hn : sortNames l'.dedup = (sortNames l.dedup).filter fun s => decide (s ∈ l') := by
    apply List.Perm.eq_of_pairwise (le := (· ≤ ·)) (fun a b _ _ h1 h2 => le_antisymm h1 h2) (sortNames_sorted _) ((sortNames_sorted _).filter _)
    refine (sortNames_perm _).trans ?_
    refine (List.Perm.trans ?_ ((sortNames_perm l.dedup).filter _).symm)
    rw [List.perm_ext_iff_of_nodup l'.nodup_dedup (l.nodup_dedup.filter _)]
    intro x
    simp only [List.mem_dedup, List.mem_filter, decide_eq_true_eq]
    exact ⟨fun hx => ⟨hs x hx, hx⟩, fun hx => hx.2⟩
  rw [hn, mapE_filter_of (f' := T.sizeKey row) (q := fun k : ℚ × String => decide (k.2 ∈ l')) hk (fun s _ k hk => by
    unfold Topology.sizeKey at hk
    obtain ⟨_, -, hk⟩ := bind_eq_ok.mp hk
    cases hk
    rfl) fun _ _ _ _ h => h]
  simp only [ebind_ok, epure, Except.ok.injEq]
  rw [← insertionSort_filter keyGe_total keyGe_trans, List.filter_map]
  rfl

/-! ## The order of the groups -/

theorem order_codes {T : Topology} {a : List Dataset} (hn : (a.map (·.code)).Nodup) {ordered : List String}
    (h : T.orderedDependencies ((a.filter fun ds => ds.type == .marketGroup).map (·.location)) none = .ok ordered) :
    ∃ order, groupOrder T a = .ok order ∧ (∀ i ∈ order, i < a.length) ∧
      order.map (codeAt a) = ((a.filter fun d => d.type == .marketGroup).map (·.code)).insertionSort fun x y => rankC ordered a y ≤ rankC ordered a x := by
  have hlt : ∀ i ∈ positionsOf .marketGroup a, i < a.length := by
    intro i hi
    obtain ⟨d, hd, -⟩ := mem_positionsOf.mp hi
    exact (List.getElem?_eq_some_iff.mp hd).1
  refine ⟨(positionsOf .marketGroup a).insertionSort fun i j => sizeRank ordered a j ≤ sizeRank ordered a i, ?_, ?_, ?_⟩
  · unfold groupOrder
    simp only [h, ebind_ok]
    rfl
  · intro i hi
    exact hlt i ((List.perm_insertionSort _ _).mem_iff.mp hi)
  · rw [← positions_codes]
    exact List.map_insertionSort (fun i j => sizeRank ordered a j ≤ sizeRank ordered a i) (fun x y => rankC ordered a y ≤ rankC ordered a x) (codeAt a) _ fun i hi j hj => by rw [rankC_at hn (hlt i hi), rankC_at hn (hlt j hj)]

theorem rank_part {ordered : List String} {X : List Dataset} (hn : (X.map (·.code)).Nodup) {d : Dataset} (hd : d ∈ X) : rankC ordered X d.code = ordered.idxOf d.location := by
  unfold rankC
  rw [find_code hn hd]

theorem nodup_part {X : List Dataset} (hn : (X.map (·.code)).Nodup) : ((c.part X).map (·.code)).Nodup := (List.filter_sublist.map _).nodup hn

/-- The side of a code. -/
def sideC (j : String → Bool) : Option String → Bool
  | none => false
  | some k => j k

theorem Whole.side {j : String → Bool} {b : Bool} {d : Dataset} (h : Whole c (some j) b d) : sideC j d.code = b := by
  obtain ⟨⟨k, h1, h2⟩, -⟩ := h.code j rfl
  rw [h1]
  exact h2

theorem codes_filter {j : String → Bool} {X : List Dataset} (hX : Divided c (some j) X) {p : Dataset → Bool} :
    ((c.part X).filter p).map (·.code) = ((X.filter p).map (·.code)).filter (sideC j) := by
  rw [List.filter_map]
  congr 1
  unfold Cut.part
  rw [List.filter_filter, List.filter_filter]
  refine List.filter_congr fun d hd => ?_
  show (p d && c.name d.name) = (sideC j d.code && p d)
  rw [(hX d hd).side, Bool.and_comm]

/-! ## One turn -/

theorem propagate_keep {k : Option String} {v : ℚ} {x y : Dataset} (h : propagateIn k v x = .ok y) : Keep c J x y := by
  intro b hx
  unfold propagateIn at h
  obtain ⟨l, hl, h⟩ := bind_eq_ok.mp h
  obtain ⟨l', hl', h⟩ := bind_eq_ok.mp h
  cases h
  refine hx.setSup rfl ?_
  intro m hm
  cases hm
  intro e he
  obtain ⟨e0, h0, h1⟩ := mapE_mem hl' he
  have hs := sup_of hx (getKey_eq_ok.mp hl) e0 h0
  unfold propagateVolume at h1
  obtain ⟨_, -, h1⟩ := bind_eq_ok.mp h1
  obtain ⟨_, -, h1⟩ := bind_eq_ok.mp h1
  cases h1
  split <;> exact hs

theorem propagate_other {j : String → Bool} {b : Bool} {k : String} (hk : j k ≠ b) {v : ℚ} {x y : Dataset} (hx : Whole c (some j) b x) (h : propagateIn (some k) v x = .ok y) : y = x := by
  have h0 := h
  unfold propagateIn at h
  obtain ⟨l, hl, h⟩ := bind_eq_ok.mp h
  obtain ⟨l', hl', h⟩ := bind_eq_ok.mp h
  have hls := getKey_eq_ok.mp hl
  have := propagateIn_none (k := k) (v := v) hls (fun s hs => by
    obtain ⟨s', hs'⟩ := mapE_total hl' s hs
    unfold propagateVolume at hs'
    obtain ⟨q, hq, -⟩ := bind_eq_ok.mp hs'
    have hq := getKey_eq_ok.mp hq
    refine ⟨q, hq, ?_⟩
    rintro rfl
    exact hk ((sup_of hx hls s hs).2 j rfl q hq))
  rw [this] at h0
  cases h0
  rfl

theorem turn_keep {j : String → Bool} {st : List Dataset} (hn : (st.map (·.code)).Nodup) {ds ds' : Dataset} (hds : ds ∈ st) (hu : updateMarketVolume ds = .ok ds') {x y : Dataset} (hx : x ∈ st)
    (h : turnC ds' x = .ok y) : Keep c (some j) x y ∧ y.code = x.code := by
  obtain ⟨hd', -⟩ := update_same hu
  unfold turnC at h
  split at h
  · next he =>
    cases h
    have : x = ds := code_inj hn hx hds (by rw [he, hd'])
    subst this
    exact ⟨keep_volume hu, he.symm⟩
  · split at h
    · obtain ⟨l, l', h1, h2, -⟩ := propagateIn_ok h
      exact ⟨propagate_keep h, by rw [h2]⟩
    · cases h; exact ⟨.refl _, rfl⟩

theorem mapE_map_eq {α β κ : Type} {f : α → Except Err β} {k : α → κ} {k' : β → κ} {l : List α} {r : List β} (h : mapE f l = .ok r) (hf : ∀ a ∈ l, ∀ b, f a = .ok b → k' b = k a) :
    r.map k' = l.map k := by
  induction l generalizing r with
  | nil => cases h; rfl
  | cons a l ih =>
    unfold mapE at h
    obtain ⟨b, hb, h⟩ := bind_eq_ok.mp h
    obtain ⟨r', hr', h⟩ := bind_eq_ok.mp h
    cases h
    rw [List.map_cons, List.map_cons, hf a List.mem_cons_self b hb, ih hr' fun x hx => hf x (List.mem_cons_of_mem _ hx)]

theorem step_part {j : String → Bool} (L : List (Option String)) {X X' : List Dataset} (hX : Divided c (some j) X) (hn : (X.map (·.code)).Nodup) (h : foldE stepC X L = .ok X') :
    (Divided c (some j) X' ∧ (X'.map (·.code)).Nodup) ∧ foldE stepC (c.part X) (L.filter (sideC j)) = .ok (c.part X') := by
  refine fold_local (s := fun d => c.name d.name) (D := fun st => Divided c (some j) st ∧ (st.map (·.code)).Nodup) (side := sideC j) ?_ ?_ ⟨hX, hn⟩ h
  · rintro k _ hk st st' ⟨hX, hn⟩ h
    unfold stepC at h ⊢
    cases hf : st.find? fun d => decide (d.code = k) with
    | none =>
      rw [hf] at h
      cases h
      refine ⟨⟨hX, hn⟩, ?_⟩
      have : ((st.filter fun d => c.name d.name).find? fun d => decide (d.code = k)) = none :=
        List.find?_eq_none.mpr fun x hx => List.find?_eq_none.mp hf x (List.mem_filter.mp hx).1
      rw [this]
    | some ds =>
      rw [hf] at h
      have hds := List.mem_of_find?_eq_some hf
      have hdk : ds.code = k := by simpa using List.find?_some hf
      obtain ⟨ds', hu, h⟩ := bind_eq_ok.mp h
      have hin : c.name ds.name = true := by rw [← (hX ds hds).side, hdk, hk]
      have hkeep := fun x hx y (h : turnC ds' x = .ok y) => turn_keep (c := c) (j := j) hn hds hu hx h
      refine ⟨⟨?_, ?_⟩, ?_⟩
      · intro y hy
        obtain ⟨x, hx, hxy⟩ := mapE_mem h hy
        exact ((hkeep x hx y hxy).1 _ (hX x hx)).self
      · rw [mapE_map_eq (k := (·.code)) h fun x hx y hxy => (hkeep x hx y hxy).2]
        exact hn
      · have := find_code (nodup_part (c := c) hn) (d := ds) (mem_part.mpr ⟨hds, hin⟩)
        rw [hdk] at this
        rw [show (st.filter fun d => c.name d.name) = c.part st from rfl, this]
        refine bind_eq_ok.mpr ⟨ds', hu, ?_⟩
        exact mapE_filter_of h (fun x hx y hxy => ((hkeep x hx y hxy).1 _ (hX x hx)).name.symm) fun _ _ _ _ h => h
  · rintro k _ hk st st' ⟨hX, hn⟩ h
    unfold stepC at h
    cases hf : st.find? fun d => decide (d.code = k) with
    | none =>
      rw [hf] at h
      cases h
      exact ⟨⟨hX, hn⟩, rfl⟩
    | some ds =>
      rw [hf] at h
      have hds := List.mem_of_find?_eq_some hf
      have hdk : ds.code = k := by simpa using List.find?_some hf
      obtain ⟨ds', hu, h⟩ := bind_eq_ok.mp h
      have hkeep := fun x hx y (h : turnC ds' x = .ok y) => turn_keep (c := c) (j := j) hn hds hu hx h
      refine ⟨⟨?_, ?_⟩, ?_⟩
      · intro y hy
        obtain ⟨x, hx, hxy⟩ := mapE_mem h hy
        exact ((hkeep x hx y hxy).1 _ (hX x hx)).self
      · rw [mapE_map_eq (k := (·.code)) h fun x hx y hxy => (hkeep x hx y hxy).2]
        exact hn
      · have hout : c.name ds.name = false := by rw [← (hX ds hds).side, hdk, hk]
        have := mapE_filter_of (f' := fun x => .ok x) (p := fun d => c.name d.name) (q := fun d => c.name d.name) h (fun x hx y hxy => ((hkeep x hx y hxy).1 _ (hX x hx)).name.symm) (by
          intro x hx hs y hxy
          obtain ⟨hd', -⟩ := update_same hu
          have hcode : ds'.code = ds.code := by rw [hd']
          unfold turnC at hxy
          split at hxy
          · next he =>
            have : x = ds := code_inj hn hx hds (he.trans hcode)
            rw [this, hout] at hs
            cases hs
          · split at hxy
            · obtain ⟨⟨q, hq1, hq2⟩, -⟩ := (hX ds hds).code j rfl
              rw [hcode, hq1] at hxy
              rw [propagate_other (by rw [hq2, hs, hout]; simp) (hX x hx) hxy]
            · exact hxy)
        have hid := mapE_pure (fun p : Dataset => p) (st.filter fun d => c.name d.name)
        rw [List.map_id'] at hid
        rw [hid] at this
        exact (Except.ok.inj this).symm

/-- The volumes of the market groups, once codes are given. -/
theorem groups_part {T : Topology} {j : String → Bool} {X X' : List Dataset} (hX : Divided c (some j) X) (hn : (X.map (·.code)).Nodup)
    (h : updateMarketProductionVolumes T .marketGroup X = .ok X') : Divided c (some j) X' ∧ updateMarketProductionVolumes T .marketGroup (c.part X) = .ok (c.part X') := by
  unfold updateMarketProductionVolumes at h ⊢
  rw [if_pos rfl] at h ⊢
  obtain ⟨order, ho, h⟩ := bind_eq_ok.mp h
  have ho' := ho
  unfold groupOrder at ho'
  obtain ⟨ordered, hord, -⟩ := bind_eq_ok.mp ho'
  obtain ⟨order2, ho2, hlt, hcodes⟩ := order_codes hn hord
  rw [ho] at ho2
  cases ho2
  have hsub := ordered_sub (l' := ((c.part X).filter fun ds => ds.type == .marketGroup).map (·.location)) (by
    intro s hs
    obtain ⟨d, hd, rfl⟩ := List.mem_map.mp hs
    obtain ⟨h1, h2⟩ := List.mem_filter.mp hd
    exact List.mem_map.mpr ⟨d, List.mem_filter.mpr ⟨(mem_part.mp h1).1, h2⟩, rfl⟩) hord
  have hn' := nodup_part (c := c) hn
  obtain ⟨order', ho3, hlt', hcodes'⟩ := order_codes hn' hsub
  rw [fold_code hn order X rfl hlt, hcodes] at h
  obtain ⟨⟨a1, -⟩, a2⟩ := step_part _ hX hn h
  refine ⟨a1, bind_eq_ok.mpr ⟨order', ho3, ?_⟩⟩
  rw [fold_code hn' order' _ rfl hlt', hcodes', ← a2]
  congr 1
  rw [insertionSort_filter (r := fun x y => rankC ordered X y ≤ rankC ordered X x) (fun a b => le_total _ _) (fun a b d h1 h2 => le_trans h2 h1), ← codes_filter hX]
  refine insertionSort_congr ?_
  intro x hx y hy
  obtain ⟨d, hd, rfl⟩ := List.mem_map.mp hx
  obtain ⟨e, he, rfl⟩ := List.mem_map.mp hy
  have hd0 := (List.mem_filter.mp hd).1
  have he0 := (List.mem_filter.mp he).1
  rw [rank_part hn' hd0, rank_part hn' he0, rank_part hn (mem_part.mp hd0).1, rank_part hn (mem_part.mp he0).1]
  exact idxOf_filter (a := e.location) (b := d.location) (decide_eq_true (List.mem_map.mpr ⟨e, he, rfl⟩)) (decide_eq_true (List.mem_map.mpr ⟨d, hd, rfl⟩)) ordered

end Parts
end Ocelot
