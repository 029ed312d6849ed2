import Verif.Proofs.ProgressMarkets

/-! # The functions that link market groups succeed -/

namespace Ocelot
open Spec

namespace Progress

variable {b : Bool}

theorem pairwise_pick {α : Type} {R : α → α → Prop} {l : List α} (h : l.Pairwise R) {x y : α} (hx : x ∈ l) (hy : y ∈ l) : x = y ∨ R x y ∨ R y x := by
  induction h with
  | nil => cases hx
  | cons hab _ ih =>
    rcases List.mem_cons.mp hx with rfl | hx1
    · rcases List.mem_cons.mp hy with rfl | hy1
      · exact .inl rfl
      · exact .inr (.inl (hab y hy1))
    · rcases List.mem_cons.mp hy with rfl | hy1
      · exact .inr (.inr (hab x hx1))
      · exact ih hx1 hy1

theorem parentFaces_total {T : Topology} (hT : WellFormed T) {p : Loc} (hp : ∀ s, p = .name s → Spec.Known T s) (row : Option (Finset ℕ)) :
    ∃ f, T.parentFaces p row = .ok f := by
  unfold Topology.parentFaces
  split
  · exact ⟨_, rfl⟩
  · next s =>
    split
    · exact ⟨_, rfl⟩
    · exact call_known hT (hp s rfl)

theorem contains_total {T : Topology} (hT : WellFormed T) {p c : Loc} (hp : ∀ s, p = .name s → Spec.Known T s) (hc : ∀ s, c = .name s → Spec.Known T s)
    {found : List String} (hf : ∀ s ∈ found, Spec.Known T s) (row : Option (Finset ℕ)) : ∃ b, T.contains p c (some found) row = .ok b := by
  obtain ⟨f, hf1⟩ := parentFaces_total hT hp row
  obtain ⟨g, hg, -⟩ := subtractFaces_spec hT (sub := some found) hf f
  unfold Topology.contains
  split
  · split
    · exact ⟨_, rfl⟩
    · rw [hf1, ebind_ok, hg, ebind_ok]; exact ⟨_, rfl⟩
  · next s =>
    split
    · exact ⟨_, rfl⟩
    · split
      · exact ⟨_, rfl⟩
      · obtain ⟨h, hh⟩ := call_known hT (hc s rfl)
        rw [hf1, ebind_ok, hg, ebind_ok, hh]; exact ⟨_, rfl⟩

theorem placesOf_total {data : List Dataset} (h : ∀ d ∈ data, d.refProduct.isSome) (kind : DsType) (r : String) :
    placesOf kind r data = .ok (byLocation (data.filter fun d => d.type == kind && d.refProduct == some r)) := by
  unfold placesOf
  obtain ⟨l, hl⟩ := withRef_total (l := data.filter fun ds => ds.type == kind) fun d hd => h d (List.mem_filter.mp hd).1
  obtain ⟨h1, -⟩ := withRefProduct_mapE hl
  rw [hl, h1, ebind_ok]
  simp only [epure]
  congr 2
  rw [List.filter_map, List.map_map]
  have : ((fun x : String × Dataset => x.2) ∘ fun d : Dataset => (d.refProduct.getD "", d)) = fun d => d := rfl
  rw [this, List.map_id', List.filter_filter]
  apply List.filter_congr
  intro d hd
  obtain ⟨x, hx⟩ := Option.isSome_iff_exists.mp (h d hd)
  simp [hx, Bool.and_comm]

theorem byLocation_known {T : Topology} {data : List Dataset} (h : ∀ d ∈ data, Spec.Known T d.location) {p : Dataset → Bool} :
    ∀ s ∈ (byLocation (data.filter p)).map (·.1), Spec.Known T s := by
  intro s hs
  obtain ⟨d, hd, rfl⟩ := byLocation_keys_mem.mp hs
  exact h d (List.mem_filter.mp hd).1

theorem marketsRow_total {T : Topology} (hT : WellFormed T) (hg : ∃ g, HasFaces T "GLO" g) {m : List (String × Dataset)} (h : ∀ s ∈ m.map (·.1), Spec.Known T s) :
    ∃ row, T.marketsRow m = .ok row := by
  unfold Topology.marketsRow
  split
  · next hm => exact resolveRow_total hT hg (List.ne_nil_of_mem hm) h
  · exact ⟨_, rfl⟩

theorem candidateAt_total {markets groups : List (String × Dataset)} {s : String} (h : s ∈ markets.map (·.1) ++ groups.map (·.1)) :
    ∃ d, candidateAt markets groups s = .ok d := by
  unfold candidateAt
  split
  · next hm =>
    obtain ⟨d, hd⟩ := lookup_some_of_key hm
    rw [hd]; exact ⟨d, rfl⟩
  · next hm =>
    obtain ⟨d, hd⟩ := lookup_some_of_key ((List.mem_append.mp h).resolve_left hm)
    rw [hd]; exact ⟨d, rfl⟩

theorem candidateAt_mem {markets groups : List Dataset} {s : String} {d : Dataset} (h : candidateAt (byLocation markets) (byLocation groups) s = .ok d) :
    d ∈ markets ∨ d ∈ groups := by
  unfold candidateAt at h
  split at h
  · exact .inl (byLocation_mem (getKey_eq_ok.mp h))
  · exact .inr (byLocation_mem (getKey_eq_ok.mp h))

theorem chooseLoop_total {T : Topology} (hT : WellFormed T) {row : Finset ℕ} {markets : List (String × Dataset)} {loc : String} {ordered : List String}
    (hloc : Spec.Known T loc) (ho : ∀ s ∈ ordered, Spec.Known T s) :
    ∃ found, foldE (chooseStep T row markets loc) [] ordered = .ok found ∧ (∀ s ∈ found, s ∈ ordered) := by
  have hstep : ∀ (pre : List String) a post (s : List String), ordered = pre ++ a :: post → (∀ x ∈ s, x ∈ ordered) → ∃ s', chooseStep T row markets loc s a = .ok s' ∧ ∀ x ∈ s', x ∈ ordered := by
    intro pre a post s hl hs
    have ha : a ∈ ordered := by rw [hl]; simp
    unfold chooseStep
    obtain ⟨b, hb⟩ := contains_total hT (p := .name loc) (c := .name a) (found := s) (by rintro _ ⟨⟩; exact hloc) (by rintro _ ⟨⟩; exact ho a ha) (fun x hx => ho x (hs x hx)) (some row)
    rw [hb, ebind_ok]
    split
    · refine ⟨_, rfl, ?_⟩
      intro x hx
      rcases List.mem_append.mp hx with hx | hx
      · exact hs x hx
      · rw [List.mem_singleton] at hx; rw [hx]; exact ha
    · exact ⟨s, rfl, hs⟩
  obtain ⟨found, hfound⟩ := foldE_progress (f := chooseStep T row markets loc) (I := fun _ s => ∀ x ∈ s, x ∈ ordered) (l := ordered) hstep (s := []) (by simp)
  refine ⟨found, hfound, ?_⟩
  refine foldE_inv' (I := fun _ s => ∀ x ∈ s, x ∈ ordered) (s := []) hfound (by simp) ?_
  intro pre a post s s' hl hI hs
  obtain ⟨s'', h1, h2⟩ := hstep pre a post s hl hI
  rw [h1] at hs
  cases hs
  exact h2

theorem chooseStep_grows {T : Topology} {row : Finset ℕ} {markets : List (String × Dataset)} {loc : String} {s s' : List String} {a : String}
    (h : chooseStep T row markets loc s a = .ok s') (hs : s ≠ []) : s' ≠ [] := by
  unfold chooseStep at h
  obtain ⟨b, -, h⟩ := bind_eq_ok.mp h
  split at h
  · cases h; simp
  · cases h; exact hs

theorem chooseLoop_nonempty {T : Topology} (hT : WellFormed T) {row : Finset ℕ} {markets : List (String × Dataset)} {loc : String} {ordered found : List String}
    (h : foldE (chooseStep T row markets loc) [] ordered = .ok found) {c : String} (hc : c ∈ ordered) {f f' : Finset ℕ}
    (hf : HasFaces T loc f) (hf' : HasFaces T c f') (hsub : f' ⊆ f) (hm : c ∈ markets.map (·.1) ∨ c ≠ loc) : found ≠ [] := by
  refine foldE_inv' (f := chooseStep T row markets loc) (I := fun pre s => c ∈ pre → s ≠ []) (s := []) h (by simp) ?_ hc
  intro pre a post s s' hl hI hs hmem
  by_cases hne : s = []
  · subst hne
    have hca : c = a := by
      rcases List.mem_append.mp hmem with hx | hx
      · exact absurd rfl (hI hx)
      · exact List.mem_singleton.mp hx
    subst hca
    unfold chooseStep at hs
    have hb : T.contains (.name loc) (.name c) (some []) (some row) = .ok true := by
      unfold Topology.contains
      simp only
      rw [if_neg (by intro hh; exact hf'.ne hT hh.2.1), if_neg (by
        rintro (hh | hh)
        · exact hf'.ne hT hh
        · exact hf.ne hT (by injection hh.1))]
      have h1 : T.parentFaces (.name loc) (some row) = .ok f := by
        unfold Topology.parentFaces
        simp only
        rw [if_neg (hf.ne hT), hf.call hT]
      have h2 : T.subtractFaces (some []) f = .ok f := rfl
      rw [h1, ebind_ok, h2, ebind_ok, hf'.call hT, ebind_ok]
      simp [hsub]
    rw [hb, ebind_ok, if_pos ⟨rfl, hm⟩] at hs
    cases hs
    simp
  · exact chooseStep_grows hs hne

theorem linkMarketGroup_total {T : Topology} (hT : WellFormed T) (hg : ∃ g, HasFaces T "GLO" g) {data : List Dataset} (h : Inv b T data)
    {d : Dataset} (hd : d ∈ data) (ht : d.type = .marketGroup) {r : String} (hr : d.refProduct = some r) :
    ∃ l, linkMarketGroup T data r d = .ok { d with suppliers := some l } ∧ ∀ s ∈ l, Ready s := by
  have hprod : ∀ d ∈ data, d.refProduct.isSome := fun d hd => (h.productCode hd).1
  have hkn : ∀ d ∈ data, Spec.Known T d.location := fun d hd => h.known hd
  set ms := data.filter fun d => d.type == .market && d.refProduct == some r with hms
  set gs := data.filter fun d => d.type == .marketGroup && d.refProduct == some r with hgs
  unfold linkMarketGroup
  rw [placesOf_total hprod .market r, ebind_ok, placesOf_total hprod .marketGroup r, ebind_ok, ← hms, ← hgs]
  obtain ⟨row, hrow⟩ := marketsRow_total hT hg (m := byLocation ms) (byLocation_known hkn)
  rw [hrow, ebind_ok]
  have hall : ∀ s ∈ (byLocation ms).map (·.1) ++ (byLocation gs).map (·.1), Spec.Known T s := by
    intro s hs
    rcases List.mem_append.mp hs with hs | hs
    · exact byLocation_known hkn s hs
    · exact byLocation_known hkn s hs
  obtain ⟨ordered, hord⟩ := C36_total T hT _ (some row) hall
  rw [hord, ebind_ok]
  obtain ⟨-, hmem, -⟩ := C36_order T hT _ (some row) ordered hord
  obtain ⟨found, hfound, hfm⟩ := chooseLoop_total hT (row := row) (markets := byLocation ms) (loc := d.location) (ordered := ordered) (h.known hd) fun s hs => hall s ((hmem s).mp hs)
  rw [hfound, ebind_ok]
  have hne : found ≠ [] := by
    obtain ⟨m, hm, hp, hkind, f, f', hf, hf', hsub⟩ := h.db.covers (sig d) (List.mem_map.mpr ⟨d, hd, rfl⟩) ht
    obtain ⟨m, hmd, rfl⟩ := List.mem_map.mp hm
    have hmp : m.refProduct = some r := by
      obtain ⟨x, hx⟩ := Option.isSome_iff_exists.mp (hprod m hmd)
      simp only [sig] at hp
      rw [hx, hr] at hp
      rw [hx]; exact congrArg some hp
    have hin : m.location ∈ (byLocation ms).map (·.1) ∨ (m.location ∈ (byLocation gs).map (·.1) ∧ m.location ≠ d.location) := by
      rcases hkind with hk | ⟨hk, hl⟩
      · exact .inl (byLocation_keys_mem.mpr ⟨m, List.mem_filter.mpr ⟨hmd, by simp [show m.type = .market from hk, hmp]⟩, rfl⟩)
      · exact .inr ⟨byLocation_keys_mem.mpr ⟨m, List.mem_filter.mpr ⟨hmd, by simp [show m.type = .marketGroup from hk, hmp]⟩, rfl⟩, hl⟩
    refine chooseLoop_nonempty hT hfound (c := m.location) ((hmem _).mpr (List.mem_append.mpr (hin.imp id fun h => h.1))) hf hf' hsub (hin.imp id fun h => h.2)
  obtain ⟨chosen, hchosen⟩ := mapE_ok_of_forall (f := candidateAt (byLocation ms) (byLocation gs)) (l := found) fun s hs => candidateAt_total ((hmem s).mp (hfm s hs))
  rw [hchosen, ebind_ok]
  have hcm : ∀ c ∈ chosen, c ∈ data := by
    intro c hc
    obtain ⟨s, -, hs⟩ := mapE_mem hchosen hc
    rcases candidateAt_mem hs with h | h
    · exact (List.mem_filter.mp h).1
    · exact (List.mem_filter.mp h).1
  unfold groupEntries
  obtain ⟨keyed, hkeyed⟩ := mapE_ok_of_forall (f := withCode) (l := chosen) fun c hc => by
    obtain ⟨x, hx, -⟩ := (h.fine c (hcm c hc)).code
    exact ⟨(x, c), by unfold withCode; rw [hx]; rfl⟩
  rw [hkeyed, ebind_ok]
  have hkm : ∀ p ∈ keyed.insertionSort (fun a b => a.1 ≤ b.1), p.2 ∈ data := by
    intro p hp
    have hp' := (List.perm_insertionSort (r := fun a b : String × Dataset => a.1 ≤ b.1) keyed).mem_iff.mp hp
    obtain ⟨c, hc, hpc⟩ := mapE_mem hkeyed hp'
    unfold withCode at hpc
    obtain ⟨x, -, hpc⟩ := bind_eq_ok.mp hpc
    cases hpc
    exact hcm c hc
  obtain ⟨entries, hent⟩ := mapE_ok_of_forall (f := fun p : String × Dataset => supplierEntry p.2) (l := keyed.insertionSort fun a b => a.1 ≤ b.1)
    fun p hp => by
      obtain ⟨s, hs, -⟩ := supplierEntry_ready (h.fine p.2 (hkm p hp))
      exact ⟨s, hs⟩
  rw [hent, ebind_ok]
  have hlen : entries.length = found.length := by
    rw [mapE_length hent, List.length_insertionSort, mapE_length hkeyed, mapE_length hchosen]
  have hne' : entries ≠ [] := by
    intro he
    rw [he] at hlen
    exact hne (List.length_eq_zero_iff.mp hlen.symm)
  rw [if_neg hne']
  refine ⟨entries, rfl, ?_⟩
  intro s hs
  obtain ⟨p, hp, hps⟩ := mapE_mem hent hs
  obtain ⟨s', hs', hr'⟩ := supplierEntry_ready (h.fine p.2 (hkm p hp))
  rw [hs'] at hps
  cases hps
  exact hr'

theorem total_linkGroups {T : Topology} (hT : WellFormed T) (hg : ∃ g, HasFaces T "GLO" g) {data : List Dataset} (h : Inv b T data) :
    ∃ out, linkMarketGroupSuppliers T data = .ok out ∧ Inv b T out ∧ Listed .marketGroup out := by
  have hprod : ∀ d ∈ data, d.refProduct.isSome := fun d hd => (h.productCode hd).1
  have hpair : data.Pairwise fun a b => a.type = .marketGroup → b.type = .marketGroup → a.refProduct.getD "" = b.refProduct.getD "" → a.name = b.name ∧ a.location ≠ b.location :=
    List.pairwise_map.mp h.db.groups
  have hnames : checkGroupNames data = .ok () := by
    unfold checkGroupNames
    obtain ⟨l, hl⟩ := withRef_total (l := data.filter fun ds => ds.type == .marketGroup) fun d hd => hprod d (List.mem_filter.mp hd).1
    obtain ⟨h1, -⟩ := withRefProduct_mapE hl
    rw [hl, h1, ebind_ok]
    refine (if_pos ?_).trans rfl
    rw [List.all_eq_true]
    intro g hgm
    have hfil := groupBy_mem (k := g.1) (g := g.2) hgm
    have hkey : g.1 ∈ (groupBy (fun p : String × Dataset => p.1) ((data.filter fun ds => ds.type == .marketGroup).map fun d => (d.refProduct.getD "", d))).map (·.1) := List.mem_map.mpr ⟨g, hgm, rfl⟩
    obtain ⟨b, hb, hbk⟩ := (groupBy_keys_mem _ _ _).mp hkey
    have hbg : b ∈ g.2 := by rw [hfil]; exact List.mem_filter.mpr ⟨hb, by simpa using hbk⟩
    have hsame : ∀ p ∈ g.2, p.2.name = b.2.name := by
      intro p hp
      rw [hfil] at hp
      obtain ⟨hp, hpk⟩ := List.mem_filter.mp hp
      rw [decide_eq_true_eq] at hpk
      obtain ⟨x, hx, rfl⟩ := List.mem_map.mp hp
      obtain ⟨y, hy, rfl⟩ := List.mem_map.mp hb
      obtain ⟨hx, hxt⟩ := List.mem_filter.mp hx
      obtain ⟨hy, hyt⟩ := List.mem_filter.mp hy
      simp only at hpk hbk ⊢
      by_cases hxy : x = y
      · rw [hxy]
      rcases pairwise_pick hpair hx hy with he | hr | hr
      · exact absurd he hxy
      · exact (hr (by simpa using hxt) (by simpa using hyt) (hpk.trans hbk.symm)).1
      · exact (hr (by simpa using hyt) (by simpa using hxt) (hbk.trans hpk.symm)).1.symm
    have : (g.2.map fun p => p.2.name).dedup = [b.2.name] := by
      have hrep : (g.2.map fun p => p.2.name) = List.replicate g.2.length b.2.name := by
        rw [List.eq_replicate_iff]
        refine ⟨by simp, ?_⟩
        intro n hn
        obtain ⟨p, hp, rfl⟩ := List.mem_map.mp hn
        exact hsame p hp
      rw [hrep, List.replicate_dedup]
      intro h0
      rw [List.length_eq_zero_iff.mp h0] at hbg
      cases hbg
    rw [this]
    rfl
  unfold linkMarketGroupSuppliers
  rw [hnames]
  simp only [ebind_ok]
  have hone : ∀ p ∈ data.zipIdx, ∃ d', (if p.1.type = .marketGroup ∧ isShadowed data p.2 p.1 = false then do
      let r ← getKey p.1.refProduct
      linkMarketGroup T data r p.1
    else .ok p.1) = .ok d' ∧ Next p.1 d' ∧ (p.1.type = .marketGroup → d'.suppliers.isSome) := by
    rintro ⟨d, i⟩ hp
    have hget := List.mk_mem_zipIdx_iff_getElem?.mp hp
    have hd : d ∈ data := List.mem_of_getElem? hget
    simp only
    by_cases ht : d.type = .marketGroup
    · have hsh : isShadowed data i d = false := by
        unfold isShadowed
        rw [List.any_eq_false]
        intro b hb hx
        rw [Bool.and_eq_true, Bool.and_eq_true] at hx
        obtain ⟨⟨h1, h2⟩, h3⟩ := hx
        have hlt : i < data.length := by
          by_contra hge
          rw [List.getElem?_eq_none (by omega)] at hget
          cases hget
        have hdi : data[i] = d := by
          rw [List.getElem?_eq_getElem hlt] at hget
          exact Option.some.inj hget
        have := hpair.sublist (List.drop_sublist i data)
        rw [List.drop_eq_getElem_cons hlt, hdi, List.pairwise_cons] at this
        have hp2 : b.refProduct = d.refProduct := by simpa using h2
        exact (this.1 b hb ht (by simpa using h1) (by rw [hp2])).2 (by simpa using (by simpa using h3 : b.location = d.location).symm)
      rw [if_pos ⟨ht, hsh⟩]
      obtain ⟨r, hr⟩ := Option.isSome_iff_exists.mp (hprod d hd)
      obtain ⟨l, hl, hready⟩ := linkMarketGroup_total hT hg h hd ht hr
      rw [hr]
      exact ⟨_, hl, .suppliers (fun l' hl' => by cases hl'; exact hready), fun _ => rfl⟩
    · rw [if_neg (fun hh => ht hh.1)]
      exact ⟨d, rfl, .refl d, fun h => absurd h ht⟩
  obtain ⟨out, hout⟩ := mapE_ok_of_forall fun p hp => ⟨_, (hone p hp).choose_spec.1⟩
  have hF : List.Forall₂ (fun (p : Dataset × ℕ) d' => Next p.1 d' ∧ (p.1.type = .marketGroup → d'.suppliers.isSome)) data.zipIdx out := by
    refine (forall₂_with_mem (mapE_ok_iff.mp hout)).imp ?_
    rintro d d' ⟨hd, hdd⟩
    obtain ⟨d'', h1, h2⟩ := hone d hd
    rw [h1] at hdd
    cases hdd
    exact h2
  have hF' : List.Forall₂ (fun d d' => Next d d' ∧ (d.type = .marketGroup → d'.suppliers.isSome)) data out := by
    have := List.forall₂_map_left_iff (f := fun p : Dataset × ℕ => p.1) (l := data.zipIdx) (u := out) (R := fun d d' => Next d d' ∧ (d.type = .marketGroup → d'.suppliers.isSome))
    rw [List.zipIdx_map_fst] at this
    exact this.mpr hF
  refine ⟨out, hout, h.next (hF'.imp fun d d' hd _ => hd.1), ?_⟩
  intro d' hd' hm
  obtain ⟨d, hd, h1, h2⟩ := forall₂_mem_right hF' hd'
  exact h2 ((congrArg Sig.type h1.sig).symm.trans hm)

/-! ## Volumes of market groups -/

theorem propagateVolume_ready {code : Option String} (hc : code.isSome) {v : ℚ} {s : Exchange} (hs : Ready s) : ∃ s', propagateVolume code v s = .ok s' ∧ Ready s' := by
  obtain ⟨c, hc⟩ := Option.isSome_iff_exists.mp hc
  obtain ⟨x, hx⟩ := Option.isSome_iff_exists.mp hs.1.2.1
  unfold propagateVolume
  rw [hx, hc]
  simp only [getKey_some, ebind_ok, epure]
  split
  · refine ⟨_, rfl, ⟨rfl, ?_, hs.1.2.2⟩, ?_⟩
    · first | exact hs.1.2.1 | rfl
    · have := hs.2
      rw [hx] at this
      exact this
  · exact ⟨_, rfl, hs⟩

theorem updateGroupStep_total {T : Topology} {members : List ℕ} {st : List Dataset} {i : ℕ} (h : Inv b T st) (hm : ∀ j ∈ members, ∀ d, st[j]? = some d → d.suppliers.isSome)
    (hi : i ∈ members) : ∃ st', updateGroupStep members st i = .ok st' ∧ Inv b T st' ∧ (∀ j ∈ members, ∀ d, st'[j]? = some d → d.suppliers.isSome) := by
  unfold updateGroupStep
  cases hget : st[i]? with
  | none => exact ⟨st, rfl, h, hm⟩
  | some ds =>
    simp only
    have hds : ds ∈ st := List.mem_of_getElem? hget
    obtain ⟨ds', h1, h2, h3, h4⟩ := updateMarketVolume_next (h.fine ds hds) (hm i hi ds hget)
    rw [h1, ebind_ok]
    set mid := st.set i ds' with hmid
    have hcode : ds'.code.isSome := by rw [h4]; exact (h.productCode hds).2
    have hFm : List.Forall₂ (fun d d' => d' = d ∨ (d = ds ∧ d' = ds')) st mid := by
      rw [List.forall₂_iff_get]
      refine ⟨by simp [hmid], ?_⟩
      intro j hj hj'
      simp only [List.get_eq_getElem, hmid, List.getElem_set]
      split
      · next hij =>
        subst hij
        right
        refine ⟨?_, rfl⟩
        rw [List.getElem?_eq_getElem hj] at hget
        exact Option.some.inj hget
      · exact .inl rfl
    have hinv : Inv b T mid := by
      refine h.next (hFm.imp ?_)
      rintro d d' (rfl | ⟨rfl, rfl⟩) _
      · exact .refl _
      · exact h2
    have hmm : ∀ j ∈ members, ∀ d, mid[j]? = some d → d.suppliers.isSome := by
      intro j hj d hd
      rw [hmid, List.getElem?_set] at hd
      split at hd
      · next hij =>
        subst hij
        split at hd
        · cases hd
          rw [h3]; exact hm i hi ds hget
        · cases hd
      · exact hm j hj d hd
    have hone : ∀ p ∈ mid.zipIdx, ∃ d', propagateTo members ds' ((productionVolume ds').getD 0) p = .ok d' ∧ Next p.1 d' ∧ (p.1.suppliers.isSome → d'.suppliers.isSome) := by
      rintro ⟨d, j⟩ hp
      have hdj := List.mk_mem_zipIdx_iff_getElem?.mp hp
      unfold propagateTo
      simp only
      split
      · next hc =>
        obtain ⟨sup, hsup⟩ := Option.isSome_iff_exists.mp (hmm j hc.1 d hdj)
        have hready := (hinv.fine d (List.mem_of_getElem? hdj)).sup sup hsup
        obtain ⟨sup', hs'⟩ := mapE_ok_of_forall (f := propagateVolume ds'.code ((productionVolume ds').getD 0)) (l := sup) fun s hs => by
          obtain ⟨s', h1, -⟩ := propagateVolume_ready hcode (v := (productionVolume ds').getD 0) (hready s hs)
          exact ⟨s', h1⟩
        rw [hsup, getKey_some, ebind_ok, hs', ebind_ok]
        refine ⟨_, rfl, .suppliers ?_, fun _ => rfl⟩
        intro l hl s hs
        cases hl
        obtain ⟨s0, hs0, he⟩ := mapE_mem hs' hs
        obtain ⟨s', h1, h2⟩ := propagateVolume_ready hcode (v := (productionVolume ds').getD 0) (hready s0 hs0)
        rw [h1] at he
        cases he
        exact h2
      · exact ⟨d, rfl, .refl d, id⟩
    obtain ⟨out, hout⟩ := mapE_ok_of_forall fun p hp => ⟨_, (hone p hp).choose_spec.1⟩
    have hF : List.Forall₂ (fun (p : Dataset × ℕ) d' => Next p.1 d' ∧ (p.1.suppliers.isSome → d'.suppliers.isSome)) mid.zipIdx out := by
      refine (forall₂_with_mem (mapE_ok_iff.mp hout)).imp ?_
      rintro d d' ⟨hd, hdd⟩
      obtain ⟨d'', h1, h2⟩ := hone d hd
      rw [h1] at hdd
      cases hdd
      exact h2
    have hF' : List.Forall₂ (fun d d' => Next d d' ∧ (d.suppliers.isSome → d'.suppliers.isSome)) mid out := by
      have := List.forall₂_map_left_iff (f := fun p : Dataset × ℕ => p.1) (l := mid.zipIdx) (u := out) (R := fun d d' => Next d d' ∧ (d.suppliers.isSome → d'.suppliers.isSome))
      rw [List.zipIdx_map_fst] at this
      exact this.mpr hF
    refine ⟨out, hout, hinv.next (hF'.imp fun d d' hd _ => hd.1), ?_⟩
    intro j hj d' hd'
    obtain ⟨hlen, hall⟩ := List.forall₂_iff_get.mp hF'
    have hj' : j < out.length := by
      by_contra hge
      rw [List.getElem?_eq_none (by omega)] at hd'
      cases hd'
    have hj2 : j < mid.length := by omega
    have := (hall j hj2 hj').2
    simp only [List.get_eq_getElem] at this
    rw [List.getElem?_eq_getElem hj'] at hd'
    rw [Option.some.inj hd'] at this
    exact this (hmm j hj _ (List.getElem?_eq_getElem hj2))

theorem positionsOf_get {kind : DsType} {data : List Dataset} {i : ℕ} (h : i ∈ positionsOf kind data) : ∃ d, data[i]? = some d ∧ d.type = kind := by
  unfold positionsOf at h
  obtain ⟨⟨d, j⟩, hp, rfl⟩ := List.mem_map.mp h
  obtain ⟨hp, ht⟩ := List.mem_filter.mp hp
  exact ⟨d, List.mk_mem_zipIdx_iff_getElem?.mp hp, by simpa using ht⟩

theorem mem_positionsOf {kind : DsType} {data : List Dataset} {i : ℕ} {d : Dataset} (h : data[i]? = some d) (ht : d.type = kind) : i ∈ positionsOf kind data := by
  unfold positionsOf
  exact List.mem_map.mpr ⟨(d, i), List.mem_filter.mpr ⟨List.mk_mem_zipIdx_iff_getElem?.mpr h, by simpa using ht⟩, rfl⟩

theorem total_groupVolumes {T : Topology} (hT : WellFormed T) {data : List Dataset} (h : Inv b T data) (hl : Listed .marketGroup data) :
    ∃ out, updateMarketProductionVolumes T .marketGroup data = .ok out ∧ Inv b T out ∧ Listed .marketGroup out := by
  unfold updateMarketProductionVolumes
  rw [if_pos rfl]
  have horder : ∃ order, groupOrder T data = .ok order ∧ ∀ i ∈ order, i ∈ positionsOf .marketGroup data := by
    unfold groupOrder
    obtain ⟨ordered, hord⟩ := C36_total T hT ((data.filter fun ds => ds.type == .marketGroup).map (·.location)) none (by
      intro s hs
      obtain ⟨d, hd, rfl⟩ := List.mem_map.mp hs
      exact h.known (List.mem_filter.mp hd).1)
    simp only [hord, ebind_ok, epure]
    refine ⟨_, rfl, ?_⟩
    intro i hi
    exact (List.perm_insertionSort _ _).mem_iff.mp hi
  obtain ⟨order, ho, hmem⟩ := horder
  rw [ho, ebind_ok]
  have h0 : ∀ j ∈ positionsOf .marketGroup data, ∀ d, data[j]? = some d → d.suppliers.isSome := by
    intro j hj d hd
    obtain ⟨d', hd', ht⟩ := positionsOf_get hj
    rw [hd] at hd'
    cases hd'
    exact hl d (List.mem_of_getElem? hd) ht
  let I : List ℕ → List Dataset → Prop := fun _ st => Inv b T st ∧ (∀ j ∈ positionsOf .marketGroup data, ∀ d, st[j]? = some d → d.suppliers.isSome) ∧ st.map sig = data.map sig
  have hsig : ∀ {st st' : List Dataset} {i : ℕ}, updateGroupStep (positionsOf .marketGroup data) st i = .ok st' → st'.map sig = st.map sig := by
    intro st st' i hs
    unfold updateGroupStep at hs
    split at hs
    · cases hs; rfl
    · next ds hget =>
      obtain ⟨ds', h1, hs⟩ := bind_eq_ok.mp hs
      have hds : sig ds' = sig ds := by
        unfold updateMarketVolume at h1
        obtain ⟨_, -, h1⟩ := bind_eq_ok.mp h1
        obtain ⟨_, -, h1⟩ := bind_eq_ok.mp h1
        obtain ⟨_, -, h1⟩ := bind_eq_ok.mp h1
        obtain ⟨_, -, h1⟩ := bind_eq_ok.mp h1
        obtain ⟨_, -, h1⟩ := bind_eq_ok.mp h1
        cases h1
        rfl
      have h2 : st'.map sig = (st.set i ds').zipIdx.map (fun p => sig p.1) := by
        refine mapE_map_eq hs (p := fun p : Dataset × ℕ => sig p.1) (q := sig) ?_
        intro p _ d' hp
        unfold propagateTo at hp
        split at hp
        · obtain ⟨_, -, hp⟩ := bind_eq_ok.mp hp
          obtain ⟨_, -, hp⟩ := bind_eq_ok.mp hp
          cases hp; rfl
        · cases hp; rfl
      rw [h2]
      have : ((st.set i ds').zipIdx.map fun p => sig p.1) = (st.set i ds').map sig := by
        conv_rhs => rw [← List.zipIdx_map_fst (i := 0) (l := st.set i ds'), List.map_map]
        rfl
      rw [this, List.map_set, hds]
      apply List.ext_getElem?
      intro j
      rw [List.getElem?_set]
      split
      · next hij =>
        subst hij
        rw [List.getElem?_map, hget]
        split
        · rfl
        · next hge =>
          rw [List.length_map] at hge
          rw [List.getElem?_eq_none (by omega)] at hget
          cases hget
      · rfl
  have hstep : ∀ (pre : List ℕ) a post s, order = pre ++ a :: post → I pre s → ∃ s', updateGroupStep (positionsOf .marketGroup data) s a = .ok s' ∧ I (pre ++ [a]) s' := by
    rintro pre a post s hl' ⟨h1, h2, h3⟩
    obtain ⟨s', g1, g2, g3⟩ := updateGroupStep_total h1 h2 (hmem a (by rw [hl']; simp))
    exact ⟨s', g1, g2, g3, (hsig g1).trans h3⟩
  obtain ⟨out, hout⟩ := foldE_progress (I := I) hstep ⟨h, h0, rfl⟩
  have hfin : I order out := by
    refine foldE_inv' (I := I) hout ⟨h, h0, rfl⟩ ?_
    intro pre a post s s' hl' hI hs
    obtain ⟨s'', h1, h2⟩ := hstep pre a post s hl' hI
    rw [h1] at hs
    cases hs
    exact h2
  refine ⟨out, hout, hfin.1, ?_⟩
  intro d hd ht
  obtain ⟨j, hj⟩ := List.getElem?_of_mem hd
  refine hfin.2.1 j ?_ d hj
  have hs : (out.map sig)[j]? = some (sig d) := by rw [List.getElem?_map, hj]; rfl
  rw [hfin.2.2, List.getElem?_map] at hs
  cases hdj : data[j]? with
  | none => rw [hdj] at hs; cases hs
  | some d0 =>
    rw [hdj] at hs
    exact mem_positionsOf hdj ((congrArg Sig.type (Option.some.inj hs)).trans ht)

end Progress
end Ocelot
