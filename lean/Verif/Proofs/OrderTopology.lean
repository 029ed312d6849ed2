import Verif.Proofs.OrderCodes

/-! Checks and choices among datasets in another order. -/

namespace Ocelot
open Spec

/-! ## Topology -/

theorem unionAll_perm {l l' : List (Finset ℕ)} (hp : l.Perm l') : unionAll l = unionAll l' := by
  ext x
  rw [mem_unionAll, mem_unionAll]
  exact ⟨fun ⟨s, hs, hx⟩ => ⟨s, hp.mem_iff.mp hs, hx⟩, fun ⟨s, hs, hx⟩ => ⟨s, hp.mem_iff.mpr hs, hx⟩⟩

theorem resolveRow_perm {T : Topology} {l l' : List String} (hp : l.Perm l') {r : Finset ℕ} (h : T.resolveRow l = .ok r) : T.resolveRow l' = .ok r := by
  unfold Topology.resolveRow at h ⊢
  obtain ⟨g, h1, h2⟩ := bind_eq_ok.mp h
  obtain ⟨m, h3, h4⟩ := bind_eq_ok.mp h2
  obtain ⟨m', h5, hm⟩ := mapE_perm hp h3
  rw [h1, ebind_ok, h5, ebind_ok]
  split at h4
  · cases h4
  · next hn =>
    rw [if_neg (fun h0 => hn (by rw [h0] at hm; exact List.perm_nil.mp hm)), ← unionAll_perm hm]
    exact h4

theorem overlaps_perm {T : Topology} {l l' : List String} (hp : l.Perm l') {o : Option Bool} (h : T.overlaps l = .ok o) : T.overlaps l' = .ok o := by
  unfold Topology.overlaps at h ⊢
  split at h
  · next h0 => subst h0; rw [if_pos (List.nil_perm.mp hp)]; exact h
  · next h0 =>
    rw [if_neg (fun h1 => h0 (by rw [h1] at hp; exact List.perm_nil.mp hp))]
    obtain ⟨m, h3, h4⟩ := bind_eq_ok.mp h
    obtain ⟨m', h5, hm⟩ := mapE_perm hp h3
    rw [h5, ebind_ok, ← unionAll_perm hm, ← (hm.map Finset.card).sum_eq]
    exact h4

theorem noOverlaps_perm {T : Topology} {l l' : List Dataset} (hp : l.Perm l') {b : Bool} (h : noOverlaps T l = .ok b) : noOverlaps T l' = .ok b := by
  unfold noOverlaps at h ⊢
  have hl := hp.map (fun d : Dataset => d.location)
  obtain ⟨o, h1, h2⟩ := bind_eq_ok.mp h
  rw [overlaps_perm hl h1, ebind_ok]
  simp only [← hl.mem_iff, ← hp.length_eq]
  exact h2

theorem noGeoDuplicates_perm {l l' : List Dataset} (hp : l.Perm l') : noGeoDuplicates l' = noGeoDuplicates l := by
  unfold noGeoDuplicates
  rw [hp.length_eq, ((hp.map (fun d : Dataset => d.location)).dedup).length_eq]

/-! ## Dictionaries of datasets by location -/

theorem byLocation_lookup_perm {l l' : List Dataset} (hn : (l.map (·.location)).Nodup) (hp : l.Perm l') (k : String) :
    (byLocation l').lookup k = (byLocation l).lookup k := dictOf_lookup_perm hn hp k

theorem byLocation_keys_perm {l l' : List Dataset} (hp : l.Perm l') : ((byLocation l).map (·.1)).Perm ((byLocation l').map (·.1)) := dictOf_keys_perm hp

theorem byLocation_any_perm {l l' : List Dataset} (hp : l.Perm l') (k : String) :
    ((byLocation l').any fun p => p.1 == k) = (byLocation l).any fun p => p.1 == k := by
  have e1 : ∀ m : List (String × Dataset), (m.any fun p => p.1 == k) = (m.map (·.1)).any fun x => x == k := fun m => by rw [List.any_map]; rfl
  rw [e1, e1]
  exact (byLocation_keys_perm hp).symm.any_eq

theorem marketsRow_perm {T : Topology} {m m' : List (String × Dataset)} (hp : (m.map (·.1)).Perm (m'.map (·.1))) {r : Finset ℕ} (h : T.marketsRow m = .ok r) :
    T.marketsRow m' = .ok r := by
  unfold Topology.marketsRow at h ⊢
  split at h
  · next hc => rw [if_pos (hp.mem_iff.mp hc)]; exact resolveRow_perm hp h
  · next hc => rw [if_neg (fun h0 => hc (hp.mem_iff.mpr h0))]; exact h

/-- The groups of a list in another order. -/
theorem groups_perm {α κ : Type} [DecidableEq κ] (key : α → κ) {l l' : List α} (hp : l.Perm l') :
    ((groupBy key l).map fun g => (g.1, l'.filter fun a => decide (key a = g.1))).Perm (groupBy key l') := by
  have hn : (groupBy key l').Nodup := .of_map _ (groupBy_nodup key l')
  have hn0 : ((groupBy key l).map fun g => (g.1, l'.filter fun a => decide (key a = g.1))).Nodup := by
    refine .of_map Prod.fst ?_
    rw [List.map_map]
    exact groupBy_nodup key l
  rw [List.perm_ext_iff_of_nodup hn0 hn]
  rintro ⟨k, g⟩
  rw [List.mem_map]
  constructor
  · rintro ⟨⟨k0, g0⟩, h1, h2⟩
    cases h2
    obtain ⟨a, ha, hk⟩ := (groupBy_keys_mem key l k0).mp (List.mem_map.mpr ⟨_, h1, rfl⟩)
    obtain ⟨⟨k1, g1⟩, h3, rfl⟩ := List.mem_map.mp ((groupBy_keys_mem key l' k0).mpr ⟨a, hp.mem_iff.mp ha, hk⟩)
    have := groupBy_mem h3
    subst this
    exact h3
  · intro h1
    obtain ⟨a, ha, hk⟩ := (groupBy_keys_mem key l' k).mp (List.mem_map.mpr ⟨_, h1, rfl⟩)
    obtain ⟨⟨k1, g1⟩, h3, rfl⟩ := List.mem_map.mp ((groupBy_keys_mem key l k).mpr ⟨a, hp.mem_iff.mpr ha, hk⟩)
    refine ⟨_, h3, ?_⟩
    rw [groupBy_mem h1]

/-- A loop over groups that concatenates what it finds. -/
theorem flatMapE_groups_perm {α β κ : Type} [DecidableEq κ] {key : α → κ} {f : κ × List α → Except Err (List β)} {l l' : List α} (hp : l.Perm l') {r : List β}
    (hf : ∀ k b, f (k, l.filter fun a => decide (key a = k)) = .ok b → ∃ b', f (k, l'.filter fun a => decide (key a = k)) = .ok b' ∧ b.Perm b')
    (h : flatMapE f (groupBy key l) = .ok r) : ∃ r', flatMapE f (groupBy key l') = .ok r' ∧ r.Perm r' := by
  have hF : List.Forall₂ (fun (g g' : κ × List α) => g ∈ groupBy key l ∧ g' = (g.1, l'.filter fun a => decide (key a = g.1))) (groupBy key l)
      ((groupBy key l).map fun g => (g.1, l'.filter fun a => decide (key a = g.1))) := by
    rw [List.forall₂_map_right_iff]
    exact List.forall₂_same.mpr fun g hg => ⟨hg, rfl⟩
  obtain ⟨r1, h1, h2⟩ := flatMapE_rel_perm (f' := f) hF h (by
    rintro ⟨k, g⟩ g' ⟨hg, rfl⟩ b hb
    rw [groupBy_mem hg] at hb
    exact hf k b hb)
  obtain ⟨r2, h3, h4⟩ := flatMapE_perm (groups_perm key hp) h1
  exact ⟨r2, h3, h2.trans h4⟩

/-! ## Suppliers -/

theorem suppliersOfGroup_perm {T : Topology} {σ : Dataset → String → List String → List String} {c : Dataset} {loc : Loc} {name : String}
    {group group' : List Dataset} (hp : group.Perm group') (hn : (group.map (·.location)).Nodup) {r : List Exchange}
    (h : suppliersOfGroup T σ c loc name group = .ok r) : suppliersOfGroup T σ c loc name group' = .ok r := by
  unfold suppliersOfGroup at h ⊢
  obtain ⟨b, h1, h2⟩ := bind_eq_ok.mp h
  obtain ⟨row, h3, h4⟩ := bind_eq_ok.mp h2
  obtain ⟨inside, h5, h6⟩ := bind_eq_ok.mp h4
  rw [noOverlaps_perm hp h1, ebind_ok, resolveRow_perm (hp.map _) h3, ebind_ok, h5, ebind_ok]
  simp only [byLocation_any_perm hp, byLocation_lookup_perm hn hp] at h6 ⊢
  exact h6

/-- No two datasets of one activity in the same location. -/
def LocatedByName (l : List Dataset) : Prop := ∀ n, ((l.filter fun d => decide (d.name = n)).map (·.location)).Nodup

theorem supplyConsumer_perm {T : Topology} {σ : Dataset → String → List String → List String} {row : Finset ℕ} {sup sup' : List Dataset} (hp : sup.Perm sup')
    (hn : LocatedByName sup) {c e : Dataset} (h : supplyConsumer T σ row sup c = .ok e) :
    ∃ e' new new', supplyConsumer T σ row sup' c = .ok e' ∧ new.Perm new' ∧
      e = { c with suppliers := some (c.suppliers.getD [] ++ new) } ∧ e' = { c with suppliers := some (c.suppliers.getD [] ++ new') } := by
  unfold supplyConsumer at h ⊢
  simp only at h ⊢
  obtain ⟨new, h1, h2⟩ := bind_eq_ok.mp h
  cases h2
  obtain ⟨new', h3, h4⟩ := flatMapE_groups_perm hp (fun k b hb => ⟨b, suppliersOfGroup_perm (hp.filter _) (hn k) hb, .refl b⟩) h1
  rw [h3]
  exact ⟨_, new, new', rfl, h4, rfl, rfl⟩

/-! ## Loops over groups -/

theorem foldE_progress {α σ : Type} {f : σ → α → Except Err σ} {I : List α → σ → Prop} {l : List α}
    (hstep : ∀ pre a post s, l = pre ++ a :: post → I pre s → ∃ s', f s a = .ok s' ∧ I (pre ++ [a]) s') {s : σ} (h0 : I [] s) : ∃ t, foldE f s l = .ok t := by
  have main : ∀ (rest pre : List α) (s : σ), l = pre ++ rest → I pre s → ∃ t, foldE f s rest = .ok t := by
    intro rest
    induction rest with
    | nil => exact fun _ s _ _ => ⟨s, rfl⟩
    | cons a rest ih =>
      intro pre s hl hs
      obtain ⟨s', h1, h2⟩ := hstep pre a rest s hl hs
      obtain ⟨t, ht⟩ := ih (pre ++ [a]) s' (by simp [hl]) h2
      exact ⟨t, by simp only [foldE]; exact bind_eq_ok.mpr ⟨s', h1, ht⟩⟩
  exact main l [] s rfl h0

/-- What a loop over groups does with one dataset. -/
def groupTurn {κ τ : Type} [DecidableEq κ] (key : Dataset → Option κ) (prep : κ → List Dataset → Except Err τ) (upd : τ → Dataset → Except Err Dataset)
    (data : List Dataset) (ds : Dataset) : Except Err Dataset :=
  match key ds with
  | none => .ok ds
  | some k => prep k (data.filter fun d => decide (key d = some k)) >>= fun t => upd t ds

theorem groupLoop_iff {κ τ : Type} [DecidableEq κ] {key : Dataset → Option κ} {prep : κ → List Dataset → Except Err τ}
    {upd : τ → Dataset → Except Err Dataset} {data out : List Dataset} (hkey : ∀ t ds ds', upd t ds = .ok ds' → key ds' = key ds) :
    foldE (groupStep key prep upd) data (groupKeys key data) = .ok out ↔ mapE (groupTurn key prep upd data) data = .ok out := by
  have fwd : ∀ out, foldE (groupStep key prep upd) data (groupKeys key data) = .ok out → mapE (groupTurn key prep upd data) data = .ok out := by
    intro out h
    refine mapE_ok_iff.mpr ((groupLoop hkey h).imp fun d d' hd => ?_)
    unfold groupTurn
    cases hk : key d with
    | none => rw [hk] at hd; simp only at hd ⊢; rw [hd]
    | some k =>
      rw [hk] at hd
      obtain ⟨t, h1, h2⟩ := hd
      exact bind_eq_ok.mpr ⟨t, h1, h2⟩
  refine ⟨fwd out, fun h => ?_⟩
  have hF := mapE_ok_iff.mp h
  obtain ⟨out', ho⟩ := foldE_progress (f := groupStep key prep upd) (l := groupKeys key data) (s := data)
    (I := fun pre st => List.Forall₂ (fun ds ds' => key ds' = key ds ∧ ((∀ k ∈ pre, key ds ≠ some k) → ds' = ds)) data st) (by
    intro pre k post st hl hI
    have hnk : k ∉ pre := by
      have := groupKeys_nodup key data
      rw [hl] at this
      exact fun hm => (List.nodup_append.mp this).2.2 k hm k (by simp) rfl
    have hfil : (st.filter fun ds => decide (key ds = some k)) = data.filter fun ds => decide (key ds = some k) := by
      refine forall₂_filter_eq hI ?_ ?_
      · intro a b hab; rw [hab.1]
      · intro a b hab hp
        have hp : key a = some k := by simpa using hp
        refine hab.2 fun k' hk' => ?_
        rw [hp]
        intro hh
        cases hh
        exact hnk hk'
    have hmem : k ∈ groupKeys key data := by rw [hl]; simp
    obtain ⟨d, hd, hdk⟩ := mem_groupKeys.mp hmem
    obtain ⟨d', -, hd'⟩ := forall₂_mem_left hF hd
    unfold groupTurn at hd'
    rw [hdk] at hd'
    obtain ⟨t, ht, -⟩ := bind_eq_ok.mp hd'
    have hok : ∀ b ∈ st, ∃ c, (if key b = some k then upd t b else .ok b) = Except.ok c := by
      intro b hb
      by_cases hkb : key b = some k
      · rw [if_pos hkb]
        obtain ⟨a, ha, h1, h2⟩ := forall₂_mem_right hI hb
        have hka : key a = some k := h1 ▸ hkb
        have hba : b = a := h2 fun k' hk' => by
          rw [hka]
          intro hh
          cases hh
          exact hnk hk'
        subst hba
        obtain ⟨c, -, hc⟩ := forall₂_mem_left hF ha
        unfold groupTurn at hc
        rw [hka] at hc
        obtain ⟨t', ht', hc⟩ := bind_eq_ok.mp hc
        rw [ht] at ht'
        cases ht'
        exact ⟨c, hc⟩
      · rw [if_neg hkb]; exact ⟨b, rfl⟩
    obtain ⟨st', hst'⟩ := mapE_ok_of_forall hok
    refine ⟨st', ?_, ?_⟩
    · unfold groupStep
      rw [hfil, ht, ebind_ok]
      exact hst'
    · refine forall₂_trans' hI (mapE_ok_iff.mp hst') ?_
      intro a b c hab hbc
      by_cases hkb : key b = some k
      · rw [if_pos hkb] at hbc
        exact ⟨(hkey _ _ _ hbc).trans hab.1, fun hno => absurd (hab.1 ▸ hkb) (hno k (by simp))⟩
      · rw [if_neg hkb] at hbc
        cases hbc
        exact ⟨hab.1, fun hno => hab.2 fun k' hk' => hno k' (by simp [hk'])⟩) (List.forall₂_same.mpr fun d _ => ⟨rfl, fun _ => rfl⟩)
  have := fwd out' ho
  rw [h] at this
  cases this
  exact ho

end Ocelot
