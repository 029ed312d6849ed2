import Verif.Proofs.OrderGroups

/-! Volumes of market groups, on the same datasets in another order. -/

namespace Ocelot
open Spec

/-! ## Loops over sorted lists -/

theorem foldE_front {σ ι : Type} {f : σ → ι → Except Err σ} {I : σ → Prop} {U : List ι} (hstep : ∀ s x t, I s → x ∈ U → f s x = .ok t → I t) {x : ι} (hx : x ∈ U) (p : List ι)
    (hcomm : ∀ s t u, ∀ y ∈ p, I s → f s x = .ok t → f t y = .ok u → ∃ t', f s y = .ok t' ∧ f t' x = .ok u) (hU : ∀ y ∈ p, y ∈ U) (q : List ι) :
    ∀ {s t : σ}, I s → foldE f s (x :: (p ++ q)) = .ok t → foldE f s (p ++ x :: q) = .ok t := by
  induction p with
  | nil => exact fun _ h => h
  | cons y p ih =>
    intro s t hs h
    obtain ⟨s1, h1, h2⟩ := bind_eq_ok.mp h
    obtain ⟨s2, h3, h4⟩ := bind_eq_ok.mp h2
    obtain ⟨s1', h5, h6⟩ := hcomm s s1 s2 y (by simp) hs h1 h3
    refine bind_eq_ok.mpr ⟨s1', h5, ?_⟩
    exact ih (fun s t u z hz => hcomm s t u z (by simp [hz])) (fun z hz => hU z (by simp [hz])) (hstep s y s1' hs (hU y (by simp)) h5)
      (bind_eq_ok.mpr ⟨s2, h6, h4⟩)

theorem foldE_sorted {σ ι : Type} {f : σ → ι → Except Err σ} {I : σ → Prop} {U : List ι} (hstep : ∀ s x t, I s → x ∈ U → f s x = .ok t → I t) (rank : ι → ℕ)
    (hcomm : ∀ s t u x y, x ∈ U → y ∈ U → x ≠ y → rank x = rank y → I s → f s x = .ok t → f t y = .ok u → ∃ t', f s y = .ok t' ∧ f t' x = .ok u) (L : List ι) :
    ∀ (L' : List ι) {s t : σ}, (∀ x ∈ L, x ∈ U) → L.Perm L' → L.Nodup → L.Pairwise (fun x y => rank y ≤ rank x) → L'.Pairwise (fun x y => rank y ≤ rank x) →
      I s → foldE f s L = .ok t → foldE f s L' = .ok t := by
  induction L with
  | nil => intro L' s t _ hp _ _ _ _ h; rw [hp.symm.eq_nil]; exact h
  | cons x L ih =>
    intro L' s t hU hp hn hw hw' hs h
    obtain ⟨p, q, rfl⟩ := List.append_of_mem (hp.mem_iff.mp (List.mem_cons_self (a := x) (l := L)))
    have hp' : L.Perm (p ++ q) := (List.perm_cons x).mp (hp.trans List.perm_middle)
    have hw1 : (p ++ q).Pairwise fun x y => rank y ≤ rank x := hw'.sublist (List.Sublist.append_left (List.sublist_cons_self x q) p)
    obtain ⟨s1, h1, h2⟩ := bind_eq_ok.mp h
    have h3 := ih (p ++ q) (fun y hy => hU y (by simp [hy])) hp' (List.nodup_cons.mp hn).2 (List.pairwise_cons.mp hw).2 hw1 (hstep s x s1 hs (hU x (by simp)) h1) h2
    have hpL : ∀ y ∈ p, y ∈ L := fun y hy => hp'.mem_iff.mpr (by simp [hy])
    refine foldE_front hstep (hU x (by simp)) p ?_ (fun y hy => hU y (by simp [hpL y hy])) q hs (bind_eq_ok.mpr ⟨s1, h1, h3⟩)
    intro s t u y hy hi ha hb
    refine hcomm s t u x y (hU x (by simp)) (hU y (by simp [hpL y hy])) ?_ ?_ hi ha hb
    · rintro rfl
      exact (List.nodup_cons.mp hn).1 (hpL x hy)
    · exact le_antisymm ((List.pairwise_append.mp hw').2.2 y hy x (by simp)) ((List.pairwise_cons.mp hw).1 y (hpL y hy))

theorem mapE_swap_mem {α : Type} {f g : α → Except Err α} {l r s : List α} (hc : ∀ a ∈ l, ∀ b c, f a = .ok b → g b = .ok c → ∃ b', g a = .ok b' ∧ f b' = .ok c)
    (h1 : mapE f l = .ok r) (h2 : mapE g r = .ok s) : ∃ r', mapE g l = .ok r' ∧ mapE f r' = .ok s := by
  induction l generalizing r s with
  | nil => cases h1; cases h2; exact ⟨[], rfl, rfl⟩
  | cons a l ih =>
    obtain ⟨b, r1, e1, e2, rfl⟩ := mapE_cons_ok.mp h1
    obtain ⟨c, s1, e3, e4, rfl⟩ := mapE_cons_ok.mp h2
    obtain ⟨b', e5, e6⟩ := hc a (by simp) b c e1 e3
    obtain ⟨r', e7, e8⟩ := ih (fun a ha => hc a (by simp [ha])) e2 e4
    exact ⟨b' :: r', mapE_cons_ok.mpr ⟨b', r', e5, e7, rfl⟩, mapE_cons_ok.mpr ⟨c, s1, e6, e8, rfl⟩⟩

/-! ## One turn, by code -/

/-- The volume of an updated group in the suppliers of another one. -/
def propagateIn (c : Option String) (v : ℚ) (x : Dataset) : Except Err Dataset := do
  let sup ← getKey x.suppliers
  let sup' ← mapE (propagateVolume c v) sup
  return { x with suppliers := some sup' }

/-- One dataset in the turn of the group that becomes `ds`. -/
def turnC (ds x : Dataset) : Except Err Dataset :=
  if x.code = ds.code then .ok ds else if x.type = .marketGroup then propagateIn ds.code ((productionVolume ds).getD 0) x else .ok x

/-- The turn of the group with this code. -/
def stepC (st : List Dataset) (c : Option String) : Except Err (List Dataset) :=
  match st.find? fun d => decide (d.code = c) with
  | none => .ok st
  | some ds => updateMarketVolume ds >>= fun ds' => mapE (turnC ds') st

theorem find_code {st : List Dataset} (hn : (st.map (·.code)).Nodup) {d : Dataset} (hd : d ∈ st) : (st.find? fun x => decide (x.code = d.code)) = some d := by
  cases h : st.find? fun x => decide (x.code = d.code) with
  | none =>
    have := List.find?_eq_none.mp h d hd
    simp at this
  | some x =>
    have h1 := List.mem_of_find?_eq_some h
    have h2 := List.find?_some h
    rw [code_inj hn h1 hd (by simpa using h2)]

theorem update_same {d d' : Dataset} (h : updateMarketVolume d = .ok d') : d' = { d with exchanges := d'.exchanges } ∧ ∃ l, d.suppliers = some l := by
  unfold updateMarketVolume at h
  obtain ⟨rp, -, h⟩ := bind_eq_ok.mp h
  obtain ⟨sup, h1, h⟩ := bind_eq_ok.mp h
  obtain ⟨_, -, h⟩ := bind_eq_ok.mp h
  obtain ⟨_, -, h⟩ := bind_eq_ok.mp h
  obtain ⟨_, -, h⟩ := bind_eq_ok.mp h
  cases h
  exact ⟨rfl, sup, getKey_eq_ok.mp h1⟩

theorem set_zipIdx {α : Type} (l : List α) (i : ℕ) (a : α) : (l.set i a).zipIdx = l.zipIdx.map fun p => (if p.2 = i then a else p.1, p.2) := by
  apply List.ext_getElem?
  intro j
  simp only [List.getElem?_zipIdx, List.getElem?_map, List.getElem?_set]
  by_cases hj : i = j
  · subst hj
    simp only [if_true, zero_add]
    by_cases hl : i < l.length
    · rw [if_pos hl, List.getElem?_eq_getElem hl]; simp
    · rw [if_neg hl, List.getElem?_eq_none (not_lt.mp hl)]; rfl
  · rw [if_neg hj]
    cases l[j]? with
    | none => rfl
    | some x => simp [Ne.symm hj]

theorem mapE_map' {α β γ : Type} (g : α → β) (f : β → Except Err γ) (l : List α) : mapE f (l.map g) = mapE (fun a => f (g a)) l := by
  induction l with
  | nil => rfl
  | cons a l ih => simp only [List.map_cons, mapE]; rw [ih]

theorem step_code {members : List ℕ} {st : List Dataset} (hn : (st.map (·.code)).Nodup)
    (hm : ∀ j d, st[j]? = some d → (j ∈ members ↔ d.type = .marketGroup)) {i : ℕ} {ds : Dataset} (hi : st[i]? = some ds) :
    updateGroupStep members st i = stepC st ds.code := by
  obtain ⟨hlt, hget⟩ := List.getElem?_eq_some_iff.mp hi
  have hds : ds ∈ st := hget ▸ List.getElem_mem hlt
  unfold updateGroupStep stepC
  rw [hi, find_code hn hds]
  simp only
  cases hu : updateMarketVolume ds with
  | error e => rfl
  | ok ds' =>
    rw [ebind_ok, ebind_ok, set_zipIdx, mapE_map', ← mapE_zipIdx_fst _ st 0]
    obtain ⟨hd', -⟩ := update_same hu
    have hcode : ds'.code = ds.code := by rw [hd']
    apply mapE_congr
    rintro ⟨x, j⟩ hx
    have hj : st[j]? = some x := List.mk_mem_zipIdx_iff_getElem?.mp hx
    simp only
    by_cases hji : j = i
    · subst hji
      rw [hi] at hj
      cases hj
      unfold propagateTo turnC
      simp only [if_true]
      rw [if_neg (fun h => h.2 rfl), if_pos hcode.symm]
    · obtain ⟨hlj, hgj⟩ := List.getElem?_eq_some_iff.mp hj
      have hne : x.code ≠ ds'.code := by
        rw [hcode]
        intro h0
        apply hji
        have := (List.Nodup.getElem_inj_iff hn (i := j) (j := i) (hi := by simpa using hlj) (hj := by simpa using hlt)).mp (by
          simp only [List.getElem_map]
          rw [hgj, hget, h0])
        exact this
      unfold propagateTo turnC propagateIn
      rw [if_neg hji, if_neg hne]
      by_cases ht : x.type = .marketGroup
      · rw [if_pos ht, if_pos ⟨(hm j x hj).mpr ht, fun h0 => hne (congrArg (·.code) h0)⟩]
      · rw [if_neg ht, if_neg (fun h0 => ht ((hm j x hj).mp h0.1))]

/-! ## What a turn keeps -/

/-- What the turns for market groups do not change. -/
def marks (d : Dataset) : Option String × DsType × Option String := (d.code, d.type, d.refProduct)

theorem propagateIn_ok {c : Option String} {v : ℚ} {x y : Dataset} (h : propagateIn c v x = .ok y) :
    ∃ l l', x.suppliers = some l ∧ y = { x with suppliers := some l' } ∧ mapE (propagateVolume c v) l = .ok l' ∧ List.Forall₂ (fun s s' : Exchange => s'.code = s.code) l l' := by
  unfold propagateIn at h
  obtain ⟨l, h1, h⟩ := bind_eq_ok.mp h
  obtain ⟨l', h2, h⟩ := bind_eq_ok.mp h
  cases h
  refine ⟨l, l', getKey_eq_ok.mp h1, rfl, h2, (mapE_ok_iff.mp h2).imp fun s s' hs => ?_⟩
  unfold propagateVolume at hs
  obtain ⟨_, -, hs⟩ := bind_eq_ok.mp hs
  obtain ⟨_, -, hs⟩ := bind_eq_ok.mp hs
  cases hs
  split <;> rfl

/-- One dataset and what a turn makes of it. -/
def Turned (x y : Dataset) : Prop :=
  marks y = marks x ∧ ∀ l', y.suppliers = some l' → ∃ l, x.suppliers = some l ∧ List.Forall₂ (fun s s' : Exchange => s'.code = s.code) l l'

theorem turned_step {st t : List Dataset} (hn : (st.map (·.code)).Nodup) {c : Option String} (h : stepC st c = .ok t) : List.Forall₂ Turned st t := by
  have hrefl : ∀ x : Dataset, Turned x x := fun x => ⟨rfl, fun l hl => ⟨l, hl, List.forall₂_same.mpr fun _ _ => rfl⟩⟩
  unfold stepC at h
  split at h
  · cases h; exact List.forall₂_same.mpr fun x _ => hrefl x
  · next ds hf =>
    obtain ⟨ds', hu, h⟩ := bind_eq_ok.mp h
    obtain ⟨hd', -⟩ := update_same hu
    have hds := List.mem_of_find?_eq_some hf
    refine (forall₂_with_mem (mapE_ok_iff.mp h)).imp ?_
    rintro x y ⟨hx, hxy⟩
    unfold turnC at hxy
    split at hxy
    · next hc =>
      cases hxy
      have : x = ds := code_inj hn hx hds (by rw [hc, hd'])
      subst this
      rw [hd']
      exact hrefl x
    · split at hxy
      · obtain ⟨l, l', h1, h2, -, h4⟩ := propagateIn_ok hxy
        refine ⟨by rw [h2]; rfl, fun m hm => ⟨l, h1, ?_⟩⟩
        rw [h2] at hm
        cases hm
        exact h4
      · cases hxy; exact hrefl x

theorem turned_marks {st t : List Dataset} (h : List.Forall₂ Turned st t) : t.map marks = st.map marks :=
  (forall₂_map_eq' h fun _ _ h => h.1.symm).symm

theorem codes_of_marks (st : List Dataset) : st.map (·.code) = (st.map marks).map (·.1) := by rw [List.map_map]; rfl

theorem turned_groupSuppliers {st t : List Dataset} (h : List.Forall₂ Turned st t) (hs : GroupSuppliers st) : GroupSuppliers t := by
  intro y hy ht l' hl' e' he'
  obtain ⟨x, hx, hxy⟩ := forall₂_mem_right h hy
  obtain ⟨h1, h2⟩ := hxy
  simp only [marks, Prod.mk.injEq] at h1
  obtain ⟨l, hl, hF⟩ := h2 l' hl'
  obtain ⟨e, he, hee⟩ := forall₂_mem_right hF he'
  obtain ⟨c, k1, k2⟩ := hs x hx (h1.2.1 ▸ ht) l hl e he
  refine ⟨c, hee.trans k1, fun z' hz' hzc => ?_⟩
  obtain ⟨z, hz, hzz⟩ := forall₂_mem_right h hz'
  have h3 := hzz.1
  simp only [marks, Prod.mk.injEq] at h3
  rw [h1.2.2, h3.2.2]
  exact k2 z hz (h3.1 ▸ hzc)

/-- The states of the loop over market groups. -/
structure Turning (a st : List Dataset) : Prop where
  marks : (st.map marks).Perm (a.map marks)
  sup : GroupSuppliers st

theorem Turning.codes {a st : List Dataset} (h : Turning a st) (hn : (a.map (·.code)).Nodup) : (st.map (·.code)).Nodup := by
  rw [codes_of_marks] at hn ⊢
  exact (h.marks.map _).nodup_iff.mpr hn

theorem Turning.step {a st t : List Dataset} (h : Turning a st) (hn : (a.map (·.code)).Nodup) {c : Option String} (hs : stepC st c = .ok t) : Turning a t := by
  have := turned_step (h.codes hn) hs
  exact ⟨by rw [turned_marks this]; exact h.marks, turned_groupSuppliers this h.sup⟩

theorem Turning.mem {a st : List Dataset} (h : Turning a st) {x : Dataset} (hx : x ∈ st) : ∃ z ∈ a, z.code = x.code ∧ z.type = x.type ∧ z.refProduct = x.refProduct := by
  obtain ⟨z, hz, he⟩ := List.mem_map.mp (h.marks.mem_iff.mp (List.mem_map.mpr ⟨x, hx, rfl⟩))
  simp only [Ocelot.marks, Prod.mk.injEq] at he
  exact ⟨z, hz, he.1, he.2.1, he.2.2⟩

theorem Turning.mem' {a st : List Dataset} (h : Turning a st) {z : Dataset} (hz : z ∈ a) : ∃ x ∈ st, x.code = z.code ∧ x.type = z.type ∧ x.refProduct = z.refProduct := by
  obtain ⟨x, hx, he⟩ := List.mem_map.mp (h.marks.mem_iff.mpr (List.mem_map.mpr ⟨z, hz, rfl⟩))
  simp only [Ocelot.marks, Prod.mk.injEq] at he
  exact ⟨x, hx, he.1, he.2.1, he.2.2⟩

/-! ## Turns of two groups of different products -/

theorem propagateIn_none {k : String} {v : ℚ} {x : Dataset} {l : List Exchange} (hl : x.suppliers = some l) (h : ∀ s ∈ l, ∃ c, s.code = some c ∧ c ≠ k) :
    propagateIn (some k) v x = .ok x := by
  unfold propagateIn
  rw [hl]
  have : mapE (propagateVolume (some k) v) l = .ok l := mapE_ok_iff.mpr (List.forall₂_same.mpr fun s hs => by
    obtain ⟨c, h1, h2⟩ := h s hs
    unfold propagateVolume
    rw [h1]
    show Except.ok (if c = k then _ else s) = _
    rw [if_neg h2])
  show (mapE (propagateVolume (some k) v) l >>= fun sup' => pure { x with suppliers := some sup' }) = _
  rw [this, ebind_ok, ← hl]
  rfl

theorem propagateVolume_swap {k k' : String} (hne : k ≠ k') {v v' : ℚ} (s s1 s2 : Exchange) (h1 : propagateVolume (some k) v s = .ok s1)
    (h2 : propagateVolume (some k') v' s1 = .ok s2) : ∃ s1', propagateVolume (some k') v' s = .ok s1' ∧ propagateVolume (some k) v s1' = .ok s2 := by
  unfold propagateVolume at *
  obtain ⟨c, hc, h1⟩ := bind_eq_ok.mp h1
  obtain ⟨d, hd, h1⟩ := bind_eq_ok.mp h1
  cases hd
  cases h1
  obtain ⟨c', hc', h2⟩ := bind_eq_ok.mp h2
  obtain ⟨d', hd', h2⟩ := bind_eq_ok.mp h2
  cases hd'
  cases h2
  have hcc : c' = c := by
    split at hc' <;> exact Except.ok.inj (hc'.symm.trans hc)
  subst hcc
  by_cases e1 : c' = k
  · have e2 : c' ≠ k' := fun h => hne (e1.symm.trans h)
    refine ⟨s, ?_, ?_⟩
    · rw [hc, ebind_ok]
      show Except.ok (if c' = k' then _ else s) = _
      rw [if_neg e2]
    · rw [hc, ebind_ok]
      show Except.ok (if c' = k then _ else s) = _
      rw [if_neg e2]
  · by_cases e2 : c' = k'
    · refine ⟨{ s with pv := some { amount := v' } }, ?_, ?_⟩
      · rw [hc, ebind_ok]
        show Except.ok (if c' = k' then _ else s) = _
        rw [if_pos e2]
      · show (getKey s.code >>= _) = _
        rw [hc, ebind_ok]
        show Except.ok (if c' = k then _ else _) = _
        rw [if_neg e1, if_pos e2, if_neg e1]
    · refine ⟨s, ?_, ?_⟩
      · rw [hc, ebind_ok]
        show Except.ok (if c' = k' then _ else s) = _
        rw [if_neg e2]
      · rw [hc, ebind_ok]
        show Except.ok (if c' = k then _ else s) = _
        rw [if_neg e1, if_neg e2]

theorem propagateIn_swap {k k' : String} (hne : k ≠ k') {v v' : ℚ} {x x1 x2 : Dataset} (h1 : propagateIn (some k) v x = .ok x1)
    (h2 : propagateIn (some k') v' x1 = .ok x2) : ∃ x1', propagateIn (some k') v' x = .ok x1' ∧ propagateIn (some k) v x1' = .ok x2 := by
  obtain ⟨l, l1, e1, rfl, e2, -⟩ := propagateIn_ok h1
  obtain ⟨l1', l2, e3, rfl, e4, -⟩ := propagateIn_ok h2
  cases e3
  obtain ⟨r, h3, h4⟩ := mapE_swap (propagateVolume_swap hne) e2 e4
  refine ⟨{ x with suppliers := some r }, ?_, ?_⟩
  · unfold propagateIn
    rw [e1]
    show (mapE _ l >>= _) = _
    rw [h3]
    rfl
  · unfold propagateIn
    show (mapE _ r >>= _) = _
    rw [h4]
    rfl

theorem stepC_swap {a st s1 s2 : List Dataset} (hn : (a.map (·.code)).Nodup) (hi : Turning a st) {d1 d2 : Dataset} (hd1 : d1 ∈ st) (hd2 : d2 ∈ st)
    (ht1 : d1.type = .marketGroup) (ht2 : d2.type = .marketGroup) {k1 k2 : String} (hk1 : d1.code = some k1) (hk2 : d2.code = some k2) (hp : d1.refProduct ≠ d2.refProduct)
    (h1 : stepC st (some k1) = .ok s1) (h2 : stepC s1 (some k2) = .ok s2) : ∃ s1', stepC st (some k2) = .ok s1' ∧ stepC s1' (some k1) = .ok s2 := by
  have hns := hi.codes hn
  have hns1 := (hi.step hn h1).codes hn
  have hne : k1 ≠ k2 := by
    rintro rfl
    exact hp (by rw [code_inj hns hd1 hd2 (hk1.trans hk2.symm)])
  have hf1 := find_code hns hd1
  have hf2 := find_code hns hd2
  rw [hk1] at hf1
  rw [hk2] at hf2
  have h1' := h1
  unfold stepC at h1'
  rw [hf1] at h1'
  obtain ⟨d1', hu1, hm1⟩ := bind_eq_ok.mp h1'
  obtain ⟨e1, l1, hl1⟩ := update_same hu1
  have hc1 : d1'.code = some k1 := by rw [e1]; exact hk1
  have hno1 : ∀ l, d2.suppliers = some l → ∀ s ∈ l, ∃ c, s.code = some c ∧ c ≠ k1 := by
    intro l hl s hs
    obtain ⟨c, g1, g2⟩ := hi.sup d2 hd2 ht2 l hl s hs
    exact ⟨c, g1, fun h0 => hp (g2 d1 hd1 (h0 ▸ hk1))⟩
  have hno2 : ∀ l, d1.suppliers = some l → ∀ s ∈ l, ∃ c, s.code = some c ∧ c ≠ k2 := by
    intro l hl s hs
    obtain ⟨c, g1, g2⟩ := hi.sup d1 hd1 ht1 l hl s hs
    exact ⟨c, g1, fun h0 => hp (g2 d2 hd2 (h0 ▸ hk2)).symm⟩
  have hneq : ¬ some k2 = some k1 := fun h0 => hne (Option.some.inj h0).symm
  have hneq' : ¬ some k1 = some k2 := fun h0 => hne (Option.some.inj h0)
  -- the second group is not changed by the first turn
  have hturn2 : turnC d1' d2 = .ok d2 := by
    obtain ⟨y, -, hy⟩ := forall₂_mem_left (mapE_ok_iff.mp hm1) hd2
    have hy' := hy
    unfold turnC at hy' ⊢
    rw [hk2, hc1, if_neg hneq, if_pos ht2] at hy' ⊢
    obtain ⟨l, -, hl, -⟩ := propagateIn_ok hy'
    exact propagateIn_none hl (hno1 l hl)
  have hd2' : d2 ∈ s1 := by
    obtain ⟨y, hy1, hy⟩ := forall₂_mem_left (mapE_ok_iff.mp hm1) hd2
    rw [hturn2] at hy
    cases hy
    exact hy1
  have hf2' := find_code hns1 hd2'
  rw [hk2] at hf2'
  unfold stepC at h2
  rw [hf2'] at h2
  obtain ⟨d2', hu2, hm2⟩ := bind_eq_ok.mp h2
  obtain ⟨e2, l2, hl2⟩ := update_same hu2
  have hc2 : d2'.code = some k2 := by rw [e2]; exact hk2
  have hturn1 : turnC d2' d1 = .ok d1 := by
    unfold turnC
    rw [hk1, hc2, if_neg hneq', if_pos ht1]
    exact propagateIn_none hl1 (hno2 l1 hl1)
  have hturn1' : turnC d2' d1' = .ok d1' := by
    unfold turnC
    rw [hc1, hc2, if_neg hneq', if_pos (by rw [e1]; exact ht1)]
    exact propagateIn_none (by rw [e1]; exact hl1) (hno2 l1 hl1)
  have hturn2' : turnC d1' d2' = .ok d2' := by
    unfold turnC
    rw [hc1, hc2, if_neg hneq, if_pos (by rw [e2]; exact ht2)]
    exact propagateIn_none (by rw [e2]; exact hl2) (hno1 l2 hl2)
  obtain ⟨s1', g1, g2⟩ := mapE_swap_mem (f := turnC d1') (g := turnC d2') (by
    intro x hx y z hy hz
    by_cases hx1 : x.code = some k1
    · have : x = d1 := code_inj hns hx hd1 (hx1.trans hk1.symm)
      subst this
      refine ⟨x, hturn1, ?_⟩
      have hy' := hy
      unfold turnC at hy'
      rw [hc1, if_pos hk1] at hy'
      cases hy'
      rw [hturn1'] at hz
      cases hz
      exact hy
    · by_cases hx2 : x.code = some k2
      · have : x = d2 := code_inj hns hx hd2 (hx2.trans hk2.symm)
        subst this
        rw [hturn2] at hy
        cases hy
        refine ⟨d2', ?_, ?_⟩
        · unfold turnC
          rw [hc2, if_pos hk2]
        · unfold turnC at hz
          rw [hc2, if_pos hk2] at hz
          cases hz
          exact hturn2'
      · unfold turnC at hy
        rw [hc1, if_neg hx1] at hy
        split at hy
        · next htx =>
          have hyc : y.code = x.code ∧ y.type = x.type := by
            obtain ⟨_, _, -, h0, -⟩ := propagateIn_ok hy
            rw [h0]
            exact ⟨rfl, rfl⟩
          unfold turnC at hz
          rw [hc2, hyc.1, if_neg hx2, hyc.2, if_pos htx] at hz
          obtain ⟨y', m1, m2⟩ := propagateIn_swap hne hy hz
          have hyc' : y'.code = x.code ∧ y'.type = x.type := by
            obtain ⟨_, _, -, h0, -⟩ := propagateIn_ok m1
            rw [h0]
            exact ⟨rfl, rfl⟩
          refine ⟨y', ?_, ?_⟩
          · unfold turnC
            rw [hc2, if_neg hx2, if_pos htx]
            exact m1
          · unfold turnC
            rw [hc1, hyc'.1, if_neg hx1, hyc'.2, if_pos htx]
            exact m2
        · next htx =>
          cases hy
          have hz' := hz
          unfold turnC at hz'
          rw [hc2, if_neg hx2, if_neg htx] at hz'
          cases hz'
          refine ⟨x, hz, ?_⟩
          unfold turnC
          rw [hc1, if_neg hx1, if_neg htx]) hm1 hm2
  have hs1' : stepC st (some k2) = .ok s1' := by
    unfold stepC
    rw [hf2]
    exact bind_eq_ok.mpr ⟨d2', hu2, g1⟩
  refine ⟨s1', hs1', ?_⟩
  have hmem : d1 ∈ s1' := by
    obtain ⟨y, hy1, hy⟩ := forall₂_mem_left (mapE_ok_iff.mp g1) hd1
    rw [hturn1] at hy
    cases hy
    exact hy1
  have hf1' := find_code ((hi.step hn hs1').codes hn) hmem
  rw [hk1] at hf1'
  unfold stepC
  rw [hf1']
  exact bind_eq_ok.mpr ⟨d1', hu1, g2⟩

/-! ## The whole loop -/

theorem find_perm {st st' : List Dataset} (hp : st.Perm st') (hn : (st.map (·.code)).Nodup) (c : Option String) :
    (st'.find? fun d => decide (d.code = c)) = st.find? fun d => decide (d.code = c) := by
  cases h : st.find? fun d => decide (d.code = c) with
  | none =>
    rw [List.find?_eq_none] at h ⊢
    exact fun x hx => h x (hp.mem_iff.mpr hx)
  | some d =>
    have h1 := List.mem_of_find?_eq_some h
    have h2 : d.code = c := by simpa using List.find?_some h
    rw [← h2]
    exact find_code ((hp.map _).nodup_iff.mp hn) (hp.mem_iff.mp h1)

theorem stepC_perm {st st' t : List Dataset} (hp : st.Perm st') (hn : (st.map (·.code)).Nodup) {c : Option String} (h : stepC st c = .ok t) :
    ∃ t', stepC st' c = .ok t' ∧ t.Perm t' := by
  unfold stepC at h ⊢
  rw [find_perm hp hn]
  split at h
  · cases h; exact ⟨st', rfl, hp⟩
  · obtain ⟨d', h1, h2⟩ := bind_eq_ok.mp h
    obtain ⟨t', h3, h4⟩ := mapE_perm hp h2
    exact ⟨t', bind_eq_ok.mpr ⟨d', h1, h3⟩, h4⟩

theorem foldC_perm {a : List Dataset} (hn : (a.map (·.code)).Nodup) (L : List (Option String)) : ∀ {st st' t : List Dataset}, st.Perm st' → Turning a st →
    foldE stepC st L = .ok t → ∃ t', foldE stepC st' L = .ok t' ∧ t.Perm t' := by
  induction L with
  | nil => intro st st' t hp _ h; cases h; exact ⟨st', rfl, hp⟩
  | cons c L ih =>
    intro st st' t hp hi h
    obtain ⟨s1, h1, h2⟩ := bind_eq_ok.mp h
    obtain ⟨s1', h3, h4⟩ := stepC_perm hp (hi.codes hn) h1
    obtain ⟨t', h5, h6⟩ := ih h4 (hi.step hn h1) h2
    exact ⟨t', bind_eq_ok.mpr ⟨s1', h3, h5⟩, h6⟩

/-- The code of the dataset at a position. -/
def codeAt (data : List Dataset) (i : ℕ) : Option String := (data[i]?).bind (·.code)

theorem positions_codes (kind : DsType) (data : List Dataset) :
    (positionsOf kind data).map (codeAt data) = (data.filter fun d => d.type == kind).map (·.code) := by
  unfold positionsOf
  rw [List.map_map]
  have h1 : (data.zipIdx.filter fun p => p.1.type == kind).map (codeAt data ∘ (·.2)) = (data.zipIdx.filter fun p => p.1.type == kind).map fun p => p.1.code := by
    apply List.map_congr_left
    rintro ⟨d, i⟩ hp
    have := List.mk_mem_zipIdx_iff_getElem?.mp (List.mem_filter.mp hp).1
    show ((data[i]?).bind (·.code)) = d.code
    rw [this]
    rfl
  rw [h1]
  have h2 : (data.filter fun d => d.type == kind) = (data.zipIdx.filter fun p => p.1.type == kind).map (·.1) := by
    have h3 : data = data.zipIdx.map (·.1) := by simp
    conv_lhs => rw [h3]
    rw [List.filter_map]
    rfl
  rw [h2, List.map_map]
  rfl

theorem fold_code {a : List Dataset} (hn : (a.map (·.code)).Nodup) (L : List ℕ) : ∀ (st : List Dataset), st.map marks = a.map marks → (∀ i ∈ L, i < a.length) →
    foldE (updateGroupStep (positionsOf .marketGroup a)) st L = foldE stepC st (L.map (codeAt a)) := by
  induction L with
  | nil => exact fun _ _ _ => rfl
  | cons i L ih =>
    intro st hst hL
    have hlen : st.length = a.length := by simpa using congrArg List.length hst
    have hi : i < st.length := by rw [hlen]; exact hL i (by simp)
    have hget : ∀ (j : ℕ) (d : Dataset), st[j]? = some d → ∃ z, a[j]? = some z ∧ marks d = marks z := by
      intro j d hj
      have := congrArg (fun l => l[j]?) hst
      simp only [List.getElem?_map, hj, Option.map_some] at this
      cases hz : a[j]? with
      | none => rw [hz] at this; cases this
      | some z => rw [hz] at this; exact ⟨z, rfl, Option.some.inj this⟩
    have hns : (st.map (·.code)).Nodup := by
      rw [codes_of_marks, hst, ← codes_of_marks]
      exact hn
    have hstep : updateGroupStep (positionsOf .marketGroup a) st i = stepC st (codeAt a i) := by
      rw [step_code (ds := st[i]) hns ?_ (List.getElem?_eq_getElem hi)]
      · obtain ⟨z, hz, hm⟩ := hget i st[i] (List.getElem?_eq_getElem hi)
        simp only [marks, Prod.mk.injEq] at hm
        unfold codeAt
        rw [hz, hm.1]
        rfl
      · intro j d hj
        obtain ⟨z, hz, hm⟩ := hget j d hj
        simp only [marks, Prod.mk.injEq] at hm
        rw [mem_positionsOf, hm.2.1]
        constructor
        · rintro ⟨z', hz', ht⟩
          rw [hz] at hz'
          cases hz'
          exact ht
        · exact fun ht => ⟨z, hz, ht⟩
    show (updateGroupStep _ st i >>= fun s => foldE _ s L) = (stepC st (codeAt a i) >>= fun s => foldE stepC s (L.map (codeAt a)))
    rw [hstep]
    cases h : stepC st (codeAt a i) with
    | error e => rfl
    | ok s1 =>
      rw [ebind_ok, ebind_ok]
      exact ih s1 ((turned_marks (turned_step hns h)).trans hst) fun j hj => hL j (by simp [hj])

/-- The rank of the location of the dataset with this code. -/
def rankC (ordered : List String) (a : List Dataset) (c : Option String) : ℕ :=
  match a.find? fun d => decide (d.code = c) with
  | none => 0
  | some d => ordered.idxOf d.location

theorem rankC_at {ordered : List String} {a : List Dataset} (hn : (a.map (·.code)).Nodup) {i : ℕ} (hi : i < a.length) : sizeRank ordered a i = rankC ordered a (codeAt a i) := by
  unfold sizeRank rankC codeAt
  rw [List.getElem?_eq_getElem hi]
  simp only [Option.bind_some]
  rw [find_code hn (List.getElem_mem hi)]

theorem groupOrder_codes {T : Topology} {a : List Dataset} (hn : (a.map (·.code)).Nodup) {order : List ℕ} (h : groupOrder T a = .ok order) :
    ∃ ordered, T.orderedDependencies ((a.filter fun ds => ds.type == .marketGroup).map (·.location)) none = .ok ordered ∧
      (order.map (codeAt a)).Perm ((a.filter fun d => d.type == .marketGroup).map (·.code)) ∧ (∀ i ∈ order, i < a.length) ∧
      (order.map (codeAt a)).Pairwise fun x y => rankC ordered a y ≤ rankC ordered a x := by
  unfold groupOrder at h
  obtain ⟨ordered, ho, h⟩ := bind_eq_ok.mp h
  cases h
  have htot : Std.Total fun i j => sizeRank ordered a j ≤ sizeRank ordered a i := ⟨fun i j => le_total _ _⟩
  have htr : IsTrans ℕ fun i j => sizeRank ordered a j ≤ sizeRank ordered a i := ⟨fun i j k h1 h2 => le_trans h2 h1⟩
  have hperm := List.perm_insertionSort (fun i j => sizeRank ordered a j ≤ sizeRank ordered a i) (positionsOf .marketGroup a)
  have hlt : ∀ i ∈ (positionsOf .marketGroup a).insertionSort (fun i j => sizeRank ordered a j ≤ sizeRank ordered a i), i < a.length := by
    intro i hi
    obtain ⟨d, hd, -⟩ := mem_positionsOf.mp (hperm.mem_iff.mp hi)
    exact (List.getElem?_eq_some_iff.mp hd).1
  refine ⟨ordered, ho, ?_, hlt, ?_⟩
  · rw [← positions_codes]
    exact hperm.map _
  · rw [List.pairwise_map]
    refine (List.pairwise_insertionSort (fun i j => sizeRank ordered a j ≤ sizeRank ordered a i) (positionsOf .marketGroup a)).imp_of_mem ?_
    intro i j hi hj hij
    rw [← rankC_at hn (hlt i hi), ← rankC_at hn (hlt j hj)]
    exact hij

theorem ordered_mem {T : Topology} {locations : List String} {row : Option (Finset ℕ)} {out : List String} (h : T.orderedDependencies locations row = .ok out) {s : String}
    (hs : s ∈ locations) : s ∈ out := by
  unfold Topology.orderedDependencies at h
  obtain ⟨keys, hk, h⟩ := bind_eq_ok.mp h
  cases h
  obtain ⟨k, hk1, hk2⟩ := forall₂_mem_left (mapE_ok_iff.mp hk) ((sortNames_perm _).mem_iff.mpr (List.mem_dedup.mpr hs))
  refine List.mem_map.mpr ⟨k, (List.perm_insertionSort keyGe keys).mem_iff.mpr hk1, ?_⟩
  unfold Topology.sizeKey at hk2
  obtain ⟨_, -, hk2⟩ := bind_eq_ok.mp hk2
  cases hk2
  rfl

theorem perm_groupVolumes {K : Known} {T : Topology} (a b r : List Dataset) (hp : a.Perm b) (ha : Base K a) (hs : GroupSuppliers a)
    (h : updateMarketProductionVolumes T .marketGroup a = .ok r) : ∃ r', updateMarketProductionVolumes T .marketGroup b = .ok r' ∧ Chain r r' := by
  have hn := ha.self.nodup
  have hnb : (b.map (·.code)).Nodup := (hp.map _).nodup_iff.mp hn
  unfold updateMarketProductionVolumes at h ⊢
  rw [if_pos rfl] at h ⊢
  obtain ⟨order, h1, h2⟩ := bind_eq_ok.mp h
  obtain ⟨ordered, ho, hc, hlt, hw⟩ := groupOrder_codes hn h1
  have hob : T.orderedDependencies ((b.filter fun ds => ds.type == .marketGroup).map (·.location)) none = .ok ordered := by
    rw [← ho]
    exact (C36_independent T _ _ none fun s => ((hp.filter _).map _).mem_iff).symm
  obtain ⟨order', h1'⟩ : ∃ order', groupOrder T b = .ok order' := by
    unfold groupOrder
    rw [hob]
    exact ⟨_, rfl⟩
  obtain ⟨ordered', ho', hc', hlt', hw'⟩ := groupOrder_codes hnb h1'
  rw [hob] at ho'
  cases ho'
  rw [fold_code hn order a rfl hlt] at h2
  rw [h1', ebind_ok, fold_code hnb order' b rfl hlt']
  have hi : Turning a a := ⟨.refl _, hs⟩
  have hi' : Turning a b := ⟨(hp.map _).symm, stable_groupSuppliers a b (Or.inl hp) hs⟩
  obtain ⟨t', h3, h4⟩ := foldC_perm hn _ hp hi h2
  refine ⟨t', ?_, .single (Or.inl h4)⟩
  have hU : ∀ x ∈ order.map (codeAt a), ∃ d ∈ a, d.type = .marketGroup ∧ d.code = x := by
    intro x hx
    obtain ⟨d, hd, rfl⟩ := List.mem_map.mp (hc.mem_iff.mp hx)
    obtain ⟨h5, h6⟩ := List.mem_filter.mp hd
    exact ⟨d, h5, by simpa using h6, rfl⟩
  refine foldE_sorted (I := Turning a) (U := order.map (codeAt a)) (fun s x t hi _ hst => hi.step hn hst) (rankC ordered a) ?_ (order.map (codeAt a)) _ (fun _ hx => hx)
    (hc.trans (((hp.filter _).map _).trans hc'.symm)) (hc.nodup_iff.mpr ((List.filter_sublist.map _).nodup hn)) hw ?_ hi' h3
  · intro s t u x y hx hy hxy hr his hsx hty
    obtain ⟨d, hd, hdt, rfl⟩ := hU x hx
    obtain ⟨e, he, het, rfl⟩ := hU y hy
    obtain ⟨k1, _, hk1, -⟩ := (ha.good d hd).code
    obtain ⟨k2, _, hk2, -⟩ := (ha.good e he).code
    obtain ⟨d', hd', f1, f2, f3⟩ := his.mem' hd
    obtain ⟨e', he', g1, g2, g3⟩ := his.mem' he
    rw [hk1] at hsx ⊢
    rw [hk2] at hty ⊢
    refine stepC_swap hn his hd' he' (f2.trans hdt) (g2.trans het) (f1.trans hk1) (g1.trans hk2) ?_ hsx hty
    rw [f3, g3]
    intro hprod
    unfold rankC at hr
    rw [find_code hn hd, find_code hn he] at hr
    have hmem : d.location ∈ ordered := ordered_mem ho (List.mem_map.mpr ⟨d, List.mem_filter.mpr ⟨hd, by simpa using hdt⟩, rfl⟩)
    have hloc : d.location = e.location := (List.idxOf_inj hmem).mp hr
    exact hxy (ha.apart d hd e he ⟨hdt.trans het.symm, hprod, hloc, fun h0 => by rw [hdt] at h0; cases h0⟩)
  · refine hw'.imp ?_
    intro x y hxy
    unfold rankC at hxy ⊢
    rw [find_perm hp hn, find_perm hp hn] at hxy
    exact hxy

end Ocelot
