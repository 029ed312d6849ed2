import Verif.Spec.Monotone
import Verif.Props.Monotone
import Verif.Props.ConsumerLinking
import Verif.Proofs.UnitsBase
import Mathlib.Tactic.Linarith
import Mathlib.Tactic.Ring
import Mathlib.Tactic.NormNum

/-! # C136: production volumes of markets and their consumers -/

namespace Ocelot

open Spec

namespace Direction

open _root_.Ocelot.Units

/-- The same dataset, or the one that was replaced. -/
def Swap (m m' d d' : Dataset) : Prop := d' = d ∨ d = m ∧ d' = m'

variable {m m' : Dataset}

theorem swap_list (m m' : Dataset) (a b : List Dataset) : List.Forall₂ (Swap m m') (a ++ m :: b) (a ++ m' :: b) := by
  have hs : ∀ l : List Dataset, List.Forall₂ (Swap m m') l l := fun l => List.forall₂_same.mpr fun _ _ => Or.inl rfl
  induction a with
  | nil => exact .cons (Or.inr ⟨rfl, rfl⟩) (hs b)
  | cons x a ih => exact .cons (Or.inl rfl) ih

theorem Swap.fields (hb : BiggerSeller m m') {d d' : Dataset} (h : Swap m m' d d') :
    d'.name = d.name ∧ d'.type = d.type ∧ d'.location = d.location ∧ d'.refProduct = d.refProduct ∧ d'.code = d.code := by
  rcases h with rfl | ⟨rfl, rfl⟩
  · exact ⟨rfl, rfl, rfl, rfl, rfl⟩
  · rw [hb.rest]
    exact ⟨rfl, rfl, rfl, rfl, rfl⟩

theorem row_swap (hb : BiggerSeller m m') (T : Topology) {l l' : List Dataset} (hl : List.Forall₂ (Swap m m') l l') (ds : Dataset) :
    consumerRow T l ds = consumerRow T l' ds := by
  unfold consumerRow
  have h := filter_rel (p := fun x : Dataset => x.type == peerType ds && x.name == ds.name)
    (q := fun x : Dataset => x.type == peerType ds && x.name == ds.name) (fun a b hab => by rw [(hab.fields hb).1, (hab.fields hb).2.1]) hl
  refine ER.eq (ER.ite Iff.rfl (fun _ => ?_) fun _ => ER.refl _)
  simp only
  rw [map_eq_rel (fun _ _ h => (h.1.fields hb).2.2.1.symm) h]
  exact ER.ite (nil_rel h) (fun _ => ER.refl _) fun _ => ER.refl _

theorem byLocation_swap (hb : BiggerSeller m m') {l l' : List Dataset} (hl : List.Forall₂ (Swap m m') l l') :
    List.Forall₂ (fun g g' => g.1 = g'.1 ∧ Swap m m' g.2 g'.2) (byLocation l) (byLocation l') :=
  dictOf_rel (Q := fun _ => Swap m m') (fun _ _ h => (h.fields hb).2.2.1.symm) (fun _ _ h => h) hl

theorem choose_swap (hb : BiggerSeller m m') (T : Topology) (loc : String) (crow : Option (Finset ℕ)) {l l' : List Dataset} (hl : List.Forall₂ (Swap m m') l l') :
    ER (List.Forall₂ (Swap m m')) (chooseMarkets T loc crow l) (chooseMarkets T loc crow l') := by
  unfold chooseMarkets
  have hf : ∀ t : DsType, List.Forall₂ (Swap m m') (l.filter fun d => d.type == t) (l'.filter fun d => d.type == t) := fun t =>
    forall₂_imp (fun _ _ h => h.1) (filter_rel (fun d d' hd => by rw [(hd.fields hb).2.1]) hl)
  have hm := byLocation_swap hb (hf .market)
  have hg := byLocation_swap hb (hf .marketGroup)
  have lm := map_eq_rel (f := Prod.fst) (g := Prod.fst) (fun _ _ h => h.1) hm
  have lg := map_eq_rel (f := Prod.fst) (g := Prod.fst) (fun _ _ h => h.1) hg
  have hrow : T.marketsRow (byLocation (l.filter fun d => d.type == .market)) = T.marketsRow (byLocation (l'.filter fun d => d.type == .market)) := by
    unfold Topology.marketsRow
    rw [show (byLocation (l.filter fun d => d.type == .market)).map (·.1) = _ from lm]
  simp only
  rw [hrow, show (byLocation (l.filter fun d => d.type == .market)).map (·.1) = _ from lm,
    show (byLocation (l.filter fun d => d.type == .marketGroup)).map (·.1) = _ from lg]
  refine (ER.refl _).bind ?_
  rintro row _ rfl
  refine (ER.refl _).bind ?_
  rintro o _ rfl
  refine (ER.refl _).bind ?_
  rintro f _ rfl
  refine (ER.refl _).bind ?_
  rintro f' _ rfl
  refine ER.mapE (refl_list f') fun s _ hab => ?_
  subst hab
  unfold candidateAt
  rw [show (byLocation (l.filter fun d => d.type == .market)).map (·.1) = _ from lm]
  exact ER.ite Iff.rfl (fun _ => ER.getKey (lookup_rel (R := fun _ => Swap m m') hm s)) fun _ => ER.getKey (lookup_rel (R := fun _ => Swap m m') hg s)

theorem mapping_swap (hb : BiggerSeller m m') (r : String) {l l' : List Dataset} (hl : List.Forall₂ (Swap m m') l l') :
    List.Forall₂ (Swap m m') (marketsMapping l r) (marketsMapping l' r) :=
  forall₂_imp (fun _ _ h => h.1) (filter_rel (fun d d' hd => by rw [(hd.fields hb).2.1, (hd.fields hb).2.2.2.1]) hl)

/-- The amount from the supplier with code `k` in a list of exchanges. -/
def recv (l : List Exchange) (k : String) : ℚ := ((l.filter fun e => e.code == some k).map (·.amount)).sum

theorem recv_append (a b : List Exchange) (k : String) : recv (a ++ b) k = recv a k + recv b k := by
  unfold recv
  rw [List.filter_append, List.map_append, List.sum_append]

/-- The volume of the sellers with code `k`. -/
def sold (l : List Dataset) (k : String) : ℚ := ((l.filter fun d => d.code == some k).map sellerVolume).sum

theorem recv_shares {e : Exchange} {T : ℚ} (k : String) : ∀ {l : List Dataset} {new : List Exchange},
    List.Forall₂ (IsShare e T) (l.filter fun d => decide (sellerVolume d ≠ 0)) new → recv new k = e.amount * (sold l k / T)
  | [], new, h => by
    cases h
    simp [recv, sold]
  | d :: l, new, h => by
    by_cases hv : sellerVolume d = 0
    · rw [List.filter_cons, if_neg (by simpa using hv)] at h
      rw [recv_shares k h]
      unfold sold
      rw [List.filter_cons]
      split
      · simp [hv]
      · rfl
    · rw [List.filter_cons, if_pos (by simpa using hv)] at h
      obtain ⟨n, rest, hn, hr, rfl⟩ := List.forall₂_cons_left_iff.mp h
      have ih := recv_shares k hr
      unfold recv sold at ih ⊢
      have hc : n.code = d.code := by rw [hn]
      have ha : n.amount = e.amount * (sellerVolume d / T) := by rw [hn]
      rw [List.filter_cons, List.filter_cons, hc]
      split
      · rw [List.map_cons, List.sum_cons, List.map_cons, List.sum_cons, ih, ha]
        ring
      · exact ih

/-- Replacing a seller by a bigger one adds the same to all sales and to its own sales. -/
theorem sold_swap (hb : BiggerSeller m m') {k : String} (hk : m.code = some k) {l l' : List Dataset} (hl : List.Forall₂ (Swap m m') l l') :
    ∃ δ, 0 ≤ δ ∧ sellersVolume l' = sellersVolume l + δ ∧ sold l' k = sold l k + δ ∧ ∀ j, j ≠ k → sold l' j = sold l j := by
  induction hl with
  | nil => exact ⟨0, le_refl _, by simp [sellersVolume], by simp [sold], fun _ _ => rfl⟩
  | @cons d d' l l' hd _ ih =>
    obtain ⟨δ, h0, h1, h2, h3⟩ := ih
    unfold sellersVolume sold at *
    rcases hd with rfl | ⟨rfl, rfl⟩
    · refine ⟨δ, h0, ?_, ?_, fun j hj => ?_⟩
      · simp only [List.map_cons, List.sum_cons, h1]; ring
      · rw [List.filter_cons, List.filter_cons]
        split
        · simp only [List.map_cons, List.sum_cons, h2]; ring
        · exact h2
      · rw [List.filter_cons, List.filter_cons]
        split
        · simp only [List.map_cons, List.sum_cons, h3 j hj]
        · exact h3 j hj
    · have hv : sellerVolume d ≤ sellerVolume d' := hb.volume
      have hk' : d'.code = some k := by rw [hb.rest]; exact hk
      refine ⟨δ + (sellerVolume d' - sellerVolume d), by linarith, ?_, ?_, fun j hj => ?_⟩
      · simp only [List.map_cons, List.sum_cons, h1]; ring
      · simp only [List.filter_cons, hk, hk', beq_self_eq_true, if_true, List.map_cons, List.sum_cons, h2]; ring
      · have : (some k == some j) = false := by simp [Ne.symm hj]
        simp only [List.filter_cons, hk, hk', this, Bool.false_eq_true, if_false, h3 j hj]

theorem recv_none {e : Exchange} (hn : NoCode e) {k : String} (hk : k ≠ "") : recv [e] k = 0 := by
  unfold recv
  rw [List.filter_cons, if_neg]
  · simp
  · intro h
    have h : e.code = some k := by simpa using h
    have := hn.2
    rw [h] at this
    simp_all

theorem recv_nonneg {e : Exchange} (h : 0 ≤ e.amount) (k : String) : 0 ≤ recv [e] k := by
  unfold recv
  rw [List.filter_cons]
  split <;> simp [h]

/-- One input with several sellers. -/
theorem shares_swap (hb : BiggerSeller m m') {k : String} (hk : m.code = some k) (hk0 : k ≠ "") {e : Exchange} (hn : NoCode e) (he : 0 ≤ e.amount)
    {c c' : List Dataset} (hc : List.Forall₂ (Swap m m') c c') (hv : ∀ d ∈ c, 0 ≤ sellerVolume d) {s s' n n' : List Exchange}
    (hz : sellersVolume c = 0 → s = [e] ∧ n = [])
    (hnz : sellersVolume c ≠ 0 → s = [] ∧ List.Forall₂ (IsShare e (sellersVolume c)) (c.filter fun d => decide (sellerVolume d ≠ 0)) n)
    (hz' : sellersVolume c' = 0 → s' = [e] ∧ n' = [])
    (hnz' : sellersVolume c' ≠ 0 → s' = [] ∧ List.Forall₂ (IsShare e (sellersVolume c')) (c'.filter fun d => decide (sellerVolume d ≠ 0)) n') :
    recv s k + recv n k ≤ recv s' k + recv n' k ∧ ∀ j, j ≠ k → recv s' j + recv n' j ≤ recv s j + recv n j := by
  obtain ⟨δ, hδ, hT, hK, hJ⟩ := sold_swap hb hk hc
  have hT0 : 0 ≤ sellersVolume c := sum_nonneg hv
  have hS0 : ∀ j, 0 ≤ sold c j := fun j => sum_nonneg fun d hd => hv d (List.mem_filter.mp hd).1
  have hST : ∀ j, sold c j ≤ sellersVolume c := fun j => filter_sum_le _ hv
  by_cases h0 : sellersVolume c = 0
  · obtain ⟨rfl, rfl⟩ := hz h0
    have hsc : ∀ j, sold c j = 0 := fun j => le_antisymm (h0 ▸ hST j) (hS0 j)
    by_cases h0' : sellersVolume c' = 0
    · obtain ⟨rfl, rfl⟩ := hz' h0'
      exact ⟨le_refl _, fun _ _ => le_refl _⟩
    · obtain ⟨rfl, hF⟩ := hnz' h0'
      have hnil : ∀ j, recv [] j = 0 := fun _ => rfl
      rw [recv_none hn hk0, recv_shares k hF, hnil, hK, hsc, hT, h0, zero_add, zero_add, zero_add]
      refine ⟨mul_nonneg he (div_nonneg hδ (by linarith)), fun j hj => ?_⟩
      rw [recv_shares j hF, hJ j hj, hsc, hnil]
      have := recv_nonneg he j
      simpa using this
  · obtain ⟨rfl, hF⟩ := hnz h0
    have hTp : 0 < sellersVolume c := lt_of_le_of_ne hT0 (Ne.symm h0)
    obtain ⟨rfl, hF'⟩ := hnz' (by rw [hT]; linarith)
    refine ⟨?_, fun j hj => ?_⟩
    · rw [recv_shares k hF, recv_shares k hF', hK, hT]
      have := mul_le_mul_of_nonneg_left (up (hST k) hTp hδ) he
      linarith
    · rw [recv_shares j hF, recv_shares j hF', hJ j hj, hT]
      have := mul_le_mul_of_nonneg_left (down (hS0 j) hTp hδ) he
      linarith

/-- One input. -/
theorem outcome_swap (hb : BiggerSeller m m') {k : String} (hk : m.code = some k) (hk0 : k ≠ "") {e : Exchange} (hn : NoCode e) (he : 0 ≤ e.amount)
    {c c' : List Dataset} (hc : List.Forall₂ (Swap m m') c c') (hv : ∀ d ∈ c, 0 ≤ sellerVolume d) {s s' n n' : List Exchange}
    (ho : Spec.Outcome e c s n) (ho' : Spec.Outcome e c' s' n') :
    recv s k + recv n k ≤ recv s' k + recv n' k ∧ ∀ j, j ≠ k → recv s' j + recv n' j ≤ recv s j + recv n j := by
  cases hc with
  | nil =>
    obtain ⟨rfl, rfl⟩ := ho
    obtain ⟨rfl, rfl⟩ := ho'
    exact ⟨le_refl _, fun _ _ => le_refl _⟩
  | cons hd hl =>
    cases hl with
    | nil =>
      obtain ⟨rfl, rfl⟩ := ho
      obtain ⟨h3, rfl⟩ := ho'
      rw [(hd.fields hb).2.2.2.2] at h3
      rw [h3]
      exact ⟨le_refl _, fun _ _ => le_refl _⟩
    | cons hd2 hl => exact shares_swap hb hk hk0 hn he (.cons hd (.cons hd2 hl)) hv ho.1 ho.2 ho'.1 ho'.2

end Direction

open Direction

/-- C136: a bigger production volume of one market or market group does not lower what any consumer gets from it, nor raise what it
gets from others. -/
theorem C136_consumers {M : MathEnv} {T : Topology} (a b out out' : List Dataset) (m m' : Dataset) (k : String) (hb : BiggerSeller m m') (hk : m.code = some k)
    (hk0 : k ≠ "") (hl : Linkable (a ++ m :: b)) (hl' : Linkable (a ++ m' :: b)) (hv : ∀ d ∈ a ++ m :: b, 0 ≤ sellerVolume d)
    (h : linkConsumersToMarkets M T (a ++ m :: b) = .ok out) (h' : linkConsumersToMarkets M T (a ++ m' :: b) = .ok out')
    (i : ℕ) (hi : i ≠ a.length) (ds o o' : Dataset) (hds : (a ++ m :: b)[i]? = some ds) (ho : out[i]? = some o) (ho' : out'[i]? = some o')
    (he : ∀ e ∈ ds.exchanges, NoCode e → 0 ≤ e.amount) :
    received o k ≤ received o' k ∧ ∀ j, j ≠ k → received o' j ≤ received o j := by
  have hds' : (a ++ m' :: b)[i]? = some ds := by
    rw [← hds]
    rcases lt_or_gt_of_ne hi with hlt | hgt
    · rw [List.getElem?_append_left hlt, List.getElem?_append_left hlt]
    · rw [List.getElem?_append_right (le_of_lt hgt), List.getElem?_append_right (le_of_lt hgt)]
      obtain ⟨n, hn⟩ := Nat.exists_eq_succ_of_ne_zero (Nat.sub_ne_zero_of_lt hgt)
      rw [hn]
      rfl
  have hget : ∀ {R : Dataset → Dataset → Prop} {l r : List Dataset} {x y : Dataset}, List.Forall₂ R l r → l[i]? = some x → r[i]? = some y → R x y := by
    intro R l r x y hF hx hy
    obtain ⟨h1, rfl⟩ := List.getElem?_eq_some_iff.mp hx
    obtain ⟨h2, rfl⟩ := List.getElem?_eq_some_iff.mp hy
    exact (List.forall₂_iff_get.mp hF).2 i h1 h2
  obtain ⟨hmem, g1, g2⟩ := hget (linkConsumers_relinked hl h) hds ho
  obtain ⟨-, g1', g2'⟩ := hget (linkConsumers_relinked hl' h') hds' ho'
  by_cases ht : ds.type = .marketGroup
  · rw [g1 ht, g1' ht]
    exact ⟨le_refl _, fun _ _ => le_refl _⟩
  have hsw := swap_list m m' a b
  obtain ⟨crow, hc, res, hF, hd, -⟩ := g2 ht
  obtain ⟨crow', hc', res', hF', hd', -⟩ := g2' ht
  rw [← row_swap hb T hsw, hc] at hc'
  cases hc'
  have hO : ∀ j, received o j = recv (res.flatMap (·.1)) j + recv (res.flatMap (·.2)) j := by
    intro j
    rw [← recv_append, hd]
    rfl
  have hO' : ∀ j, received o' j = recv (res'.flatMap (·.1)) j + recv (res'.flatMap (·.2)) j := by
    intro j
    rw [← recv_append, hd']
    rfl
  simp only [hO, hO']
  clear hO hO' hd hd' hds hds' g1 g1' g2 g2' hmem
  generalize ds.exchanges = l at hF hF' he
  induction hF generalizing res' with
  | nil =>
    cases hF'
    exact ⟨le_refl _, fun _ _ => le_refl _⟩
  | @cons e r l rs her _ ih =>
    obtain ⟨r', rs', her', hFr, rfl⟩ := List.forall₂_cons_left_iff.mp hF'
    obtain ⟨i1, i2⟩ := ih rs' hFr fun e he1 => he e (List.mem_cons_of_mem _ he1)
    have : recv r.1 k + recv r.2 k ≤ recv r'.1 k + recv r'.2 k ∧ ∀ j, j ≠ k → recv r'.1 j + recv r'.2 j ≤ recv r.1 j + recv r.2 j := by
      by_cases hn : NoCode e
      · obtain ⟨c, hch, hoc⟩ := her.2 hn
        obtain ⟨c', hch', hoc'⟩ := her'.2 hn
        have hrel := choose_swap hb T ds.location crow (mapping_swap hb e.name hsw)
        rw [hch, hch'] at hrel
        exact outcome_swap hb hk hk0 hn (he e List.mem_cons_self hn) hrel
          (fun d hd => hv d (chooseMarkets_sells hch d hd).1) hoc hoc'
      · rw [her.1 hn, her'.1 hn]
        exact ⟨le_refl _, fun _ _ => le_refl _⟩
    simp only [List.flatMap_cons, recv_append]
    refine ⟨by linarith [this.1], fun j hj => ?_⟩
    have := this.2 j hj
    have := i2 j hj
    linarith

example : BiggerSeller (exampleSeller .market "FR" 1) (exampleSeller .market "FR" 3) := ⟨rfl, by decide +kernel⟩

/-- A consumer in Europe and markets in two countries. -/
example : (linkConsumersToMarkets flatEnv exampleWorld [exampleSeller .market "FR" 1, exampleSeller .market "DE" 1, exampleConsumer "RER" "p"]).map
    (fun l => l[2]?.map fun d => (received d "mFR", received d "mDE")) = .ok (some (5, 5)) := by decide +kernel
example : (linkConsumersToMarkets flatEnv exampleWorld [exampleSeller .market "FR" 3, exampleSeller .market "DE" 1, exampleConsumer "RER" "p"]).map
    (fun l => l[2]?.map fun d => (received d "mFR", received d "mDE")) = .ok (some (15 / 2, 5 / 2)) := by decide +kernel

end Ocelot
