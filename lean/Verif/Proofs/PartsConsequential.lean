import Verif.Proofs.PartsRun

/-! The functions of the consequential system model work on the parts of a database separately. -/

namespace Ocelot
namespace Parts
open Spec

variable {c : Cut} {J : Option (String → Bool)}

theorem local_deleteLinks : Local c J deleteLinksToConstrained := by
  intro X X' hX h
  unfold deleteLinksToConstrained at h ⊢
  obtain ⟨u, hu, h⟩ := bind_eq_ok.mp h
  have hL : Local c J (fun X => .ok (X.map fun ds : Dataset => { ds with exchanges := ds.exchanges.map dropLink })) := by
    refine local_map fun d => .changeE (fun b e he => ?_) d
    unfold dropLink
    split
    · exact he.unlink rfl
    · exact he
  obtain ⟨a1, a2⟩ := hL X X' hX h
  have hu' : ∃ u', constrainedActivities (c.part X) = .ok u' := by
    unfold constrainedActivities at hu ⊢
    refine mapE_ok_of_forall fun e he => ?_
    obtain ⟨d, hd, he⟩ := List.mem_flatMap.mp he
    exact mapE_total hu e (List.mem_flatMap.mpr ⟨d, (mem_part.mp hd).1, he⟩)
  obtain ⟨u', hu'⟩ := hu'
  exact ⟨a1, bind_eq_ok.mpr ⟨u', hu', a2⟩⟩

theorem local_alternative : Local c J ensureAlternativeProduction := by
  intro X X' hX h
  unfold ensureAlternativeProduction at h ⊢
  split at h
  · next hall =>
    cases h
    refine ⟨hX, ?_⟩
    rw [if_pos]
    rw [List.all_eq_true] at hall ⊢
    intro n hn
    unfold namesOfType at hn
    obtain ⟨d, hd, hn⟩ := List.mem_flatMap.mp hn
    obtain ⟨hdX, hds⟩ := mem_part.mp hd
    obtain ⟨e, he, rfl⟩ := List.mem_map.mp hn
    obtain ⟨he, ht⟩ := List.mem_filter.mp he
    have ht : e.type = .byproduct := by simpa using ht
    have hen : c.name e.name = true := by rw [((hX d hdX).exs e he).named (by rw [ht]; rfl)]; exact hds
    have := hall e.name (List.mem_flatMap.mpr ⟨d, hdX, List.mem_map.mpr ⟨e, List.mem_filter.mpr ⟨he, by simp [ht]⟩, rfl⟩⟩)
    rw [List.contains_iff_mem] at this ⊢
    obtain ⟨x, hx, hxe⟩ := List.mem_flatMap.mp this
    refine List.mem_flatMap.mpr ⟨x, mem_part.mpr ⟨hx, ?_⟩, hxe⟩
    obtain ⟨f, hf, hfn⟩ := List.mem_map.mp hxe
    obtain ⟨hf, hft⟩ := List.mem_filter.mp hf
    have hft : f.type = .referenceProduct := by simpa using hft
    rw [← ((hX x hx).exs f hf).named (by rw [hft]; rfl), hfn]
    exact hen
  · cases h

theorem best_sub {l r : List Exchange} {levels : List String} (h : bestSuppliers l levels = .ok r) : ∀ e ∈ r, e ∈ l := by
  induction levels with
  | nil => cases h
  | cons level levels ih =>
    unfold bestSuppliers at h
    obtain ⟨found, hf, h⟩ := bind_eq_ok.mp h
    split at h
    · exact ih h
    · cases h; exact filterE_sub hf

theorem local_prune : Local c J pruneByTechnologyLevel := by
  refine local_mapE fun d d' h b hd => ?_
  unfold pruneSuppliers at h
  split at h
  · obtain ⟨r, hr, h⟩ := bind_eq_ok.mp h
    cases h
    refine hd.setSup rfl fun l hl e he => ?_
    cases hl
    have := best_sub hr e he
    cases hs : d.suppliers with
    | none => rw [hs] at this; cases this
    | some l => rw [hs] at this; exact sup_of hd hs e this
  · cases h; exact hd

/-! ## Constrained markets -/

/-- What the loop does not change. -/
def sigOf (c : Cut) (d : Dataset) : Bool × List (Option Bool) := (c.name d.name, d.exchanges.map (·.conditional))

theorem mem_modify {α : Type} {l : List α} {j : ℕ} {f : α → α} {y : α} (h : y ∈ l.modify j f) : y ∈ l ∨ ∃ x, l[j]? = some x ∧ y = f x := by
  obtain ⟨i, hi⟩ := List.mem_iff_getElem?.mp h
  rw [List.getElem?_modify] at hi
  cases hx : l[i]? with
  | none => rw [hx] at hi; cases hi
  | some x =>
    rw [hx] at hi
    split at hi
    · next hij => right; subst hij; exact ⟨x, hx, by simpa using hi.symm⟩
    · left
      have hxy : x = y := Option.some.inj hi
      exact hxy ▸ List.mem_of_getElem? hx

theorem modify_map_eq {α β : Type} {l : List α} {j : ℕ} {f : α → α} {g : α → β} (hg : ∀ a, g (f a) = g a) : (l.modify j f).map g = l.map g := by
  apply List.ext_getElem?
  intro i
  rw [List.getElem?_map, List.getElem?_map, List.getElem?_modify]
  cases l[i]? with
  | none => rfl
  | some x =>
    split
    · simp [hg]
    · rfl

theorem modifyLast_map {κ : Type} {i : String} {f : Dataset → Except Err Dataset} {g : Dataset → κ} (hf : ∀ d d', f d = .ok d' → g d' = g d) {X X' : List Dataset}
    (h : modifyLast i f X = .ok X') : X'.map g = X.map g ∧ ∃ d ∈ X, d.id = i ∧ ∃ d', f d = .ok d' := by
  induction X generalizing X' with
  | nil => cases h
  | cons d X ih =>
    unfold modifyLast at h
    split at h
    · obtain ⟨r, hr, h⟩ := bind_eq_ok.mp h
      cases h
      obtain ⟨a1, x, hx, hxi, hxf⟩ := ih hr
      exact ⟨by rw [List.map_cons, List.map_cons, a1], x, List.mem_cons_of_mem _ hx, hxi, hxf⟩
    · split at h
      · next hid =>
        obtain ⟨d', hd', h⟩ := bind_eq_ok.mp h
        cases h
        exact ⟨by rw [List.map_cons, List.map_cons, hf d d' hd'], d, List.mem_cons_self, hid, d', hd'⟩
      · cases h

theorem swap_sig {name : String} {d d' : Dataset} (h : swapRoles name d = .ok d') : sigOf c d' = sigOf c d := by
  unfold swapRoles at h
  obtain ⟨_, -, h⟩ := bind_eq_ok.mp h
  simp only at h
  split at h
  · split at h
    · cases h
      unfold sigOf
      simp only [List.map_map, Prod.mk.injEq, true_and]
      refine List.map_congr_left fun e _ => ?_
      simp only [Function.comp]
      split <;> split <;> rfl
    · cases h
  · cases h

theorem swap_keep {name : String} {d d' : Dataset} (hn : c.name name = c.id d.id) (h : swapRoles name d = .ok d') : Keep c J d d' := by
  intro b hd
  unfold swapRoles at h
  obtain ⟨_, -, h⟩ := bind_eq_ok.mp h
  simp only at h
  split at h
  · split at h
    · cases h
      refine hd.setEx rfl ?_
      intro e he
      obtain ⟨e1, h1, rfl⟩ := List.mem_map.mp he
      obtain ⟨e0, h0, rfl⟩ := List.mem_map.mp h1
      have hok := hd.exs e0 h0
      have hturn : OkE c b (if e0.type = .referenceProduct then toInput e0 else e0) := by
        split
        · next ht => exact hok.renamed (hok.named (by rw [ht]; rfl)) (.inr rfl)
        · exact hok
      revert hturn
      generalize (if e0.type = .referenceProduct then toInput e0 else e0) = e2
      intro hturn
      split
      · next hne => exact hturn.renamed (by show c.name e2.name = b; rw [hne, hn, hd.id]) (.inr rfl)
      · exact hturn
    · cases h
  · cases h

/-- The name of the exchange that becomes the reference product is on the side of the dataset. -/
theorem swap_name {name : String} {b : Bool} {d d' : Dataset} (hd : Whole c J b d) (h : swapRoles name d = .ok d') : c.name name = b := by
  unfold swapRoles at h
  obtain ⟨_, -, h⟩ := bind_eq_ok.mp h
  simp only at h
  split at h
  · next e2 hf =>
    split at h
    · next ht =>
      have hm : e2 ∈ (d.exchanges.map fun e => if e.type = .referenceProduct then toInput e else e).filter fun e => e.name == name := by rw [hf]; exact List.mem_singleton.mpr rfl
      obtain ⟨hm, hn⟩ := List.mem_filter.mp hm
      have hn : e2.name = name := by simpa using hn
      obtain ⟨e0, h0, he⟩ := List.mem_map.mp hm
      have hnamed : c.name e0.name = b ∧ e2.name = e0.name := by
        split at he
        · next hr => exact ⟨(hd.exs e0 h0).named (by rw [hr]; rfl), by rw [← he]; rfl⟩
        · subst he; exact ⟨(hd.exs e0 h0).named (by rw [ht]; rfl), rfl⟩
      rw [← hn, hnamed.2, hnamed.1]
    · cases h
  · cases h

theorem constrained_step {b : Bool} {d : Dataset} (hd : Whole c J b d) {pre l st st' : List Dataset} (hsig : st.map (sigOf c) = (pre ++ d :: l).map (sigOf c)) (hst : Divided c J st)
    {j : ℕ} {e : Exchange} (hj : d.exchanges[j]? = some e) (hcond : e.conditional = some true) (h : constrainedStep st (pre.length, j, e) = .ok st') :
    (Divided c J st' ∧ st'.map (sigOf c) = st.map (sigOf c)) ∧ (b = true → constrainedStep (c.part st) ((c.part pre).length, j, e) = .ok (c.part st')) ∧
      (b = false → c.part st' = c.part st) := by
  unfold constrainedStep at h ⊢
  obtain ⟨link, hlink, h⟩ := bind_eq_ok.mp h
  simp only at h hlink
  rw [List.map_append, List.map_cons] at hsig
  obtain ⟨pre', t, rfl, h1, h2⟩ := List.map_eq_append_iff.mp hsig
  obtain ⟨d', post, rfl, h3, h4⟩ := List.map_eq_cons_iff.mp h2
  have hlen : pre'.length = pre.length := by simpa using congrArg List.length h1
  have hplen : (c.part pre').length = (c.part pre).length := by
    have : ∀ l : List Dataset, (c.part l).length = ((l.map (sigOf c)).filter fun s => s.1).length := by
      intro l
      rw [List.filter_map, List.length_map]
      rfl
    rw [this, this, h1]
  have hmod : ∀ (p q : List Dataset) (x : Dataset), modifyExchange p.length j toInput (p ++ x :: q) = p ++ { x with exchanges := x.exchanges.modify j toInput } :: q := by
    intro p q x
    unfold modifyExchange
    induction p with
    | nil => rfl
    | cons y p ih => rw [List.cons_append, List.length_cons, List.modify_succ_cons, ih]; rfl
  rw [← hlen, hmod] at h
  have hb' : c.name d'.name = b := by
    have := congrArg (fun s => s.1) h3
    exact this.trans hd.name
  have hd' : Whole c J b d' := by
    have := hst d' (by simp)
    rwa [hb'] at this
  have hok1 : Whole c J b { d' with exchanges := d'.exchanges.modify j toInput } := by
    refine hd'.setEx rfl fun y hy => ?_
    rcases mem_modify hy with hy | ⟨x, hx, rfl⟩
    · exact hd'.exs y hy
    · have hxe := hd'.exs x (List.mem_of_getElem? hx)
      refine hxe.renamed ?_ (.inr rfl)
      have hc' : x.conditional = some true := by
        have hs := congrArg (fun s => s.2[j]?) h3
        simp only [sigOf, List.getElem?_map, hx, hj, Option.map_some, Option.some.injEq] at hs
        rw [hs, hcond]
      rcases hxe.1 with h | h
      · exact absurd hc' h.2
      · exact h
  have hst1 : Divided c J (pre' ++ { d' with exchanges := d'.exchanges.modify j toInput } :: post) := by
    intro x hx
    rcases List.mem_append.mp hx with hx | hx
    · exact hst x (by simp [hx])
    · rcases List.mem_cons.mp hx with rfl | hx
      · exact hok1.self
      · exact hst x (by simp [hx])
  obtain ⟨hmap, y, hy, hyid, y', hy'⟩ := modifyLast_map (g := sigOf c) (fun _ _ h => swap_sig h) h
  have hsig1 : (pre' ++ { d' with exchanges := d'.exchanges.modify j toInput } :: post).map (sigOf c) = (pre' ++ d' :: post).map (sigOf c) := by
    rw [List.map_append, List.map_append, List.map_cons, List.map_cons]
    congr 2
    unfold sigOf
    simp only [Prod.mk.injEq, true_and]
    exact modify_map_eq fun _ => rfl
  have hem := hd.exs e (List.mem_of_getElem? hj)
  have hname : c.name e.name = b := by
    rcases hem.1 with h | h
    · exact absurd hcond h.2
    · exact h
  have hside : c.id link = b := by rw [← hyid, (hst1 y hy).id, ← swap_name (hst1 y hy) hy', hname]
  obtain ⟨a1, a2, a3⟩ := modifyLast_part hst1 (fun x _ hx x' h => swap_keep (by rw [hname, hx, hside]) h) h
  refine ⟨⟨a1, hmap.trans hsig1⟩, ?_, ?_⟩
  · intro hbt
    refine bind_eq_ok.mpr ⟨link, hlink, ?_⟩
    have hpart : ∀ x : Dataset, c.name x.name = true → c.part (pre' ++ x :: post) = c.part pre' ++ x :: c.part post := by
      intro x hx
      unfold Cut.part
      rw [List.filter_append, List.filter_cons_of_pos (by simpa using hx)]
    simp only
    rw [hpart d' (hb'.trans hbt), ← hplen, hmod]
    have := a2 (hside.trans hbt)
    rw [hpart _ (hok1.name.trans hbt)] at this
    exact this
  · intro hbf
    rw [a3 (hside.trans hbf)]
    unfold Cut.part
    rw [List.filter_append, List.filter_append, List.filter_cons_of_neg (by simp [hb', hbf]), List.filter_cons_of_neg (by simp [hb', hbf])]

/-- The constrained exchanges of one dataset. -/
def exsOf (d : Dataset) (i : ℕ) : List (ℕ × ℕ × Exchange) := d.exchanges.zipIdx.filterMap fun e => if e.1.conditional = some true then some (i, e.2, e.1) else none

theorem exs_eq (d : Dataset) (i : ℕ) : exsOf d i = (d.exchanges.zipIdx.filter fun e => decide (e.1.conditional = some true)).map fun e => (i, e.2, e.1) := by
  unfold exsOf
  rw [← List.filterMap_eq_map, List.filterMap_filter]
  refine List.filterMap_congr fun e _ => ?_
  simp

theorem constrained_dataset {b : Bool} {d : Dataset} (hd : Whole c J b d) {pre l st st' : List Dataset} (hsig : st.map (sigOf c) = (pre ++ d :: l).map (sigOf c)) (hst : Divided c J st)
    (h : foldE constrainedStep st (exsOf d pre.length) = .ok st') :
    (Divided c J st' ∧ st'.map (sigOf c) = st.map (sigOf c)) ∧ (b = true → foldE constrainedStep (c.part st) (exsOf d (c.part pre).length) = .ok (c.part st')) ∧
      (b = false → c.part st' = c.part st) := by
  rw [exs_eq] at h ⊢
  have hmem : ∀ p ∈ d.exchanges.zipIdx.filter fun e => decide (e.1.conditional = some true), d.exchanges[p.2]? = some p.1 ∧ p.1.conditional = some true := by
    intro p hp
    obtain ⟨h1, h2⟩ := List.mem_filter.mp hp
    exact ⟨List.mk_mem_zipIdx_iff_getElem?.mp h1, by simpa using h2⟩
  revert h
  generalize (d.exchanges.zipIdx.filter fun e => decide (e.1.conditional = some true)) = L at hmem
  intro h
  induction L generalizing st with
  | nil => cases h; exact ⟨⟨hst, rfl⟩, fun _ => rfl, fun _ => rfl⟩
  | cons p L ih =>
    rw [List.map_cons] at h ⊢
    obtain ⟨m, h1, h2⟩ := bind_eq_ok.mp h
    obtain ⟨hj, hc'⟩ := hmem p List.mem_cons_self
    obtain ⟨⟨a1, a2⟩, a3, a4⟩ := constrained_step hd hsig hst hj hc' h1
    obtain ⟨⟨b1, b2⟩, b3, b4⟩ := ih (a2.trans hsig) a1 (fun q hq => hmem q (List.mem_cons_of_mem _ hq)) h2
    exact ⟨⟨b1, b2.trans a2⟩, fun hb => bind_eq_ok.mpr ⟨_, a3 hb, b3 hb⟩, fun hb => (b4 hb).trans (a4 hb)⟩

theorem constrained_suffix {pre l st st' : List Dataset} (hl : Divided c J l) (hsig : st.map (sigOf c) = (pre ++ l).map (sigOf c)) (hst : Divided c J st)
    (h : foldE constrainedStep st ((l.zipIdx pre.length).flatMap fun d => exsOf d.1 d.2) = .ok st') :
    Divided c J st' ∧ foldE constrainedStep (c.part st) (((c.part l).zipIdx (c.part pre).length).flatMap fun d => exsOf d.1 d.2) = .ok (c.part st') := by
  induction l generalizing pre st with
  | nil => cases h; exact ⟨hst, rfl⟩
  | cons d l ih =>
    rw [List.zipIdx_cons, List.flatMap_cons] at h
    obtain ⟨m, h1, h2⟩ := foldE_split.mp h
    have hd := hl d List.mem_cons_self
    obtain ⟨⟨a1, a2⟩, a3, a4⟩ := constrained_dataset hd hsig hst h1
    have hi := ih (pre := pre ++ [d]) (st := m) (fun x hx => hl x (List.mem_cons_of_mem _ hx)) (by rw [a2, hsig]; simp) a1 (by simpa using h2)
    refine ⟨hi.1, ?_⟩
    cases hs : c.name d.name with
    | true =>
      have e1 : c.part (d :: l) = d :: c.part l := by unfold Cut.part; rw [List.filter_cons_of_pos (by simpa using hs)]
      have e2 : c.part (pre ++ [d]) = c.part pre ++ [d] := by unfold Cut.part; rw [List.filter_append, List.filter_cons_of_pos (by simpa using hs)]; rfl
      rw [e1, List.zipIdx_cons, List.flatMap_cons]
      refine foldE_split.mpr ⟨_, a3 hs, ?_⟩
      have := hi.2
      rw [e2, List.length_append, List.length_singleton] at this
      exact this
    | false =>
      have e1 : c.part (d :: l) = c.part l := by unfold Cut.part; rw [List.filter_cons_of_neg (by simp [hs])]
      have e2 : c.part (pre ++ [d]) = c.part pre := by unfold Cut.part; rw [List.filter_append, List.filter_cons_of_neg (by simp [hs])]; simp
      rw [e1, ← a4 hs, ← e2]
      exact hi.2

theorem local_constrained : Local c J handleConstrainedMarkets := fun _ _ hX h => constrained_suffix (pre := []) hX rfl hX h

/-! ## Whole runs of the consequential configuration -/

theorem consequential_early (hc : c.Proper) (P : PipelineEnv) (s : Step) (hlate : s.late = false) (ha : s ≠ .addUniqueCodes) : LocalI c none (s.run P) := by
  by_cases h1 : s = .deleteLinksToConstrained
  · subst h1; exact localI_on local_deleteLinks
  · by_cases h2 : s = .ensureAlternativeProduction
    · subst h2; exact localI_on local_alternative
    · by_cases h3 : s = .handleConstrainedMarkets
      · subst h3; exact localI_on local_constrained
      · exact early_local hc P s hlate (by simp [h1, h2, h3, ha])

theorem late_local' (hc : c.Proper) (P : PipelineEnv) (s : Step) (hs : s.late = true) {j : String → Bool} {X Y : List Dataset} (hX : Divided c (some j) X)
    (hn : (X.map (·.code)).Nodup) (h : s.run P (X.map .ds) = .ok (Y.map .ds)) :
    Divided c (some j) Y ∧ (Y.map (·.code)).Nodup ∧ s.run P ((c.part X).map .ds) = .ok ((c.part Y).map .ds) := by
  by_cases hp : s = .pruneByTechnologyLevel
  · subst hp
    obtain ⟨a1, a2⟩ := localI_on local_prune X Y hX h
    refine ⟨a1, ?_, a2⟩
    obtain ⟨g, hg, hk⟩ := late_keeps P (· ≠ "RoW") .pruneByTechnologyLevel hs fun _ => rfl
    rw [hg] at h
    obtain ⟨r, hr, he⟩ := onDatasets_map.mp h
    cases ds_inj he
    have := ((hk X Y hr).1.map (·.1))
    rw [List.map_map, List.map_map] at this
    exact this.nodup hn
  · exact late_local hc P s hs hp hX hn h

theorem consequential_part (hc : c.Proper) (P : PipelineEnv) {data Y : List Dataset} (hd : c.Divides data) (hn : ∀ d ∈ data, d.suppliers = none)
    (h : foldE (fun d (s : Step) => s.run P d) (data.map .ds) (consequentialBefore ++ .addUniqueCodes :: consequentialAfter) = .ok (Y.map .ds)) :
    foldE (fun d (s : Step) => s.run P d) ((c.part data).map .ds) (consequentialBefore ++ .addUniqueCodes :: consequentialAfter) = .ok ((c.part Y).map .ds) :=
  run_part P _ _ (by decide)
    (fun _ h => runs_early P _ (fun s hs => consequential_early hc P s ((by decide : ∀ s ∈ consequentialBefore, s.late = false) s hs) ((by decide : ∀ s ∈ consequentialBefore, s ≠ .addUniqueCodes) s hs))
      (divided_start hd hn) h)
    (fun s hs j X Y hX hn h => late_local' hc P s ((by decide : ∀ s ∈ consequentialAfter, s.late = true) s hs) hX hn h) hn h

end Parts
end Ocelot
