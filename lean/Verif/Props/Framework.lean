import Verif.Model.Framework
import Verif.Proofs.ActivityLinks

/-! # Properties C59, C60, C61: collections, wrapped functions, save strategies -/

namespace Ocelot

namespace Spec

/-- `fs` are the functions in the (arbitrarily nested) items, from left to right. -/
inductive Flattens {F : Type} : List (FnItem F) → List F → Prop
  | nil : Flattens [] []
  | fn {f : F} {l : List (FnItem F)} {fs : List F} : Flattens l fs → Flattens (.fn f :: l) (f :: fs)
  | coll {inner l : List (FnItem F)} {gs fs : List F} : Flattens inner gs → Flattens l fs → Flattens (.coll inner :: l) (gs ++ fs)
  | seq {inner l : List (FnItem F)} {gs fs : List F} : Flattens inner gs → Flattens l fs → Flattens (.seq inner :: l) (gs ++ fs)

/-- Like `Flattens`, but without plain lists: everything is callable. -/
inductive Callable {F : Type} : List (FnItem F) → List F → Prop
  | nil : Callable [] []
  | fn {f : F} {l : List (FnItem F)} {fs : List F} : Callable l fs → Callable (.fn f :: l) (f :: fs)
  | coll {inner l : List (FnItem F)} {gs fs : List F} : Callable inner gs → Callable l fs → Callable (.coll inner :: l) (gs ++ fs)

/-- Apply the functions one after another. -/
def inTurn {F D : Type} (run : F → D → Except Err D) : List F → D → Except Err D
  | [], d => .ok d
  | f :: fs, d =>
    match run f d with
    | .error e => .error e
    | .ok d' => inTurn run fs d'

end Spec

open Spec

/-! ## C59 -/

mutual
theorem unwrapAll_flattens {F : Type} : ∀ l : List (FnItem F), Flattens l (unwrapAll l)
  | [] => by unfold unwrapAll; exact .nil
  | a :: l => by
    unfold unwrapAll
    exact unwrap_flattens a l (unwrapAll_flattens l)
theorem unwrap_flattens {F : Type} : ∀ (a : FnItem F) (l : List (FnItem F)), Flattens l (unwrapAll l) → Flattens (a :: l) (a.unwrap ++ unwrapAll l)
  | .fn f, l, h => by unfold FnItem.unwrap; exact .fn h
  | .coll i, l, h => by unfold FnItem.unwrap; exact .coll (unwrapAll_flattens i) h
  | .seq i, l, h => by unfold FnItem.unwrap; exact .seq (unwrapAll_flattens i) h
end

theorem flattens_unwrapAll {F : Type} {l : List (FnItem F)} {fs : List F} (h : Flattens l fs) : unwrapAll l = fs := by
  induction h with
  | nil => rfl
  | fn _ ih => unfold unwrapAll FnItem.unwrap; rw [ih]; rfl
  | coll _ _ ih1 ih2 => unfold unwrapAll FnItem.unwrap; rw [ih1, ih2]
  | seq _ _ ih1 ih2 => unfold unwrapAll FnItem.unwrap; rw [ih1, ih2]

theorem callAll_append {F D : Type} (run : F → D → Except Err D) (l₁ l₂ : List (FnItem F)) (d : D) :
    callAll run (l₁ ++ l₂) d = (callAll run l₁ d).bind fun d' => callAll run l₂ d' := by
  induction l₁ generalizing d with
  | nil => simp only [List.nil_append, callAll]; rfl
  | cons a l ih =>
    rw [List.cons_append, callAll, callAll]
    rcases h : a.call run d with e | d'
    · rfl
    · exact ih d'

theorem inTurn_append {F D : Type} (run : F → D → Except Err D) (l₁ l₂ : List F) (d : D) :
    inTurn run (l₁ ++ l₂) d = (inTurn run l₁ d).bind fun d' => inTurn run l₂ d' := by
  induction l₁ generalizing d with
  | nil => rfl
  | cons f l ih =>
    rw [List.cons_append, inTurn, inTurn]
    rcases h : run f d with e | d'
    · rfl
    · exact ih d'

theorem callAll_callable {F D : Type} (run : F → D → Except Err D) {l : List (FnItem F)} {fs : List F} (h : Callable l fs) (d : D) :
    callAll run l d = inTurn run fs d := by
  induction h generalizing d with
  | nil => simp only [callAll, inTurn]
  | fn _ ih =>
    unfold callAll inTurn FnItem.call
    rcases h : run _ d with e | d'
    · rfl
    · exact ih d'
  | coll _ _ ih1 ih2 =>
    unfold callAll FnItem.call
    rw [inTurn_append, ih1]
    rcases h : inTurn run _ d with e | d'
    · rfl
    · exact ih2 d'

theorem callable_fns {F : Type} (fs : List F) : Callable (fs.map FnItem.fn) fs := by
  induction fs with
  | nil => exact .nil
  | cons f fs ih => exact .fn ih

/-- C59: whatever the nesting, a collection holds exactly the functions from left to right, and calling it applies them one after another. -/
theorem C59_flatten {F D : Type} (run : F → D → Except Err D) (items : List (FnItem F)) :
    ∃ fs, Flattens items fs ∧ (∀ gs, Flattens items gs → gs = fs) ∧ (Coll.new items).functions = fs.map .fn ∧
      ∀ d, (Coll.new items).call run d = inTurn run fs d := by
  refine ⟨unwrapAll items, unwrapAll_flattens items, ?_, rfl, ?_⟩
  · intro gs h
    exact (flattens_unwrapAll h).symm
  · intro d
    exact callAll_callable run (callable_fns _) d

/-- C59: nesting does not matter: collections made of the same functions in the same order are equal. -/
theorem C59_nesting {F : Type} {items items' : List (FnItem F)} {fs : List F} (h : Flattens items fs) (h' : Flattens items' fs) :
    Coll.new items = Coll.new items' := by
  unfold Coll.new
  rw [flattens_unwrapAll h, flattens_unwrapAll h']

/-- C59: a collection put into a collection later is not unwrapped, but calls are still its functions in order. -/
theorem C59_nested_call {F D : Type} (run : F → D → Except Err D) (c : Coll F) {fs : List F} (h : Callable c.functions fs) (d : D) :
    c.call run d = inTurn run fs d := callAll_callable run h d

/-- C59: a plain list put into a collection later makes every call fail that reaches it. -/
theorem C59_plain_list {F D : Type} (run : F → D → Except Err D) {fs : List F} (inner rest : List (FnItem F)) {d d' : D} (h : inTurn run fs d = .ok d') :
    (Coll.mk (fs.map .fn ++ .seq inner :: rest)).call run d = .error .typeError := by
  unfold Coll.call
  simp only
  rw [callAll_append, callAll_callable run (callable_fns fs), h]
  show callAll run (FnItem.seq inner :: rest) d' = _
  unfold callAll FnItem.call
  rfl

/-- C59: `insert` puts one element before the given position (counted from the end if negative) and keeps the others in order. -/
theorem C59_insert {F : Type} (c : Coll F) (x : FnItem F) (i : ℕ) :
    (i ≤ c.functions.length → (c.insert i x).functions = c.functions.insertIdx i x) ∧
    (c.functions.length ≤ i → (c.insert i x).functions = c.functions ++ [x]) ∧
    (0 < i → i ≤ c.functions.length → (c.insert (-i) x).functions = c.functions.insertIdx (c.functions.length - i) x) ∧
    (c.functions.length ≤ i → 0 < i → (c.insert (-i) x).functions = x :: c.functions) := by
  have hins : ∀ (l : List (FnItem F)) k, k ≤ l.length → l.take k ++ [x] ++ l.drop k = l.insertIdx k x := by
    intro l
    induction l with
    | nil => intro k hk; have : k = 0 := by simpa using hk
             subst this; rfl
    | cons a l ih =>
      intro k hk
      cases k with
      | zero => rfl
      | succ k =>
        rw [List.insertIdx_succ_cons, ← ih k (by simpa using hk)]
        simp
  unfold Coll.insert slicePos
  simp only
  refine ⟨fun h => ?_, fun h => ?_, fun h0 h => ?_, fun h h0 => ?_⟩
  · rw [if_neg (by omega)]
    have : min (i : ℤ).toNat c.functions.length = i := by omega
    rw [this, hins _ _ h]
  · rw [if_neg (by omega)]
    have : min (i : ℤ).toNat c.functions.length = c.functions.length := by omega
    rw [this]
    simp
  · rw [if_pos (by omega)]
    have : (-(i : ℤ) + c.functions.length).toNat = c.functions.length - i := by omega
    rw [this, hins _ _ (by omega)]
  · rw [if_pos (by omega)]
    have : (-(i : ℤ) + c.functions.length).toNat = 0 := by omega
    rw [this]
    simp

/-- C59: setting and deleting work at the given position (counted from the end if negative), and fail outside the list. -/
theorem C59_set_delete {F : Type} (c : Coll F) (x : FnItem F) (i : ℕ) :
    (i < c.functions.length → c.setItem i x = .ok ⟨c.functions.set i x⟩ ∧ c.delItem i = .ok ⟨c.functions.eraseIdx i⟩) ∧
    (c.functions.length ≤ i → c.setItem i x = .error .indexError ∧ c.delItem i = .error .indexError) ∧
    (0 < i → i ≤ c.functions.length → c.setItem (-i) x = .ok ⟨c.functions.set (c.functions.length - i) x⟩ ∧ c.delItem (-i) = .ok ⟨c.functions.eraseIdx (c.functions.length - i)⟩) ∧
    (c.functions.length < i → c.setItem (-i) x = .error .indexError ∧ c.delItem (-i) = .error .indexError) := by
  unfold Coll.setItem Coll.delItem indexPos
  refine ⟨fun h => ?_, fun h => ?_, fun h0 h => ?_, fun h => ?_⟩
  · rw [if_pos (by omega)]
    exact ⟨rfl, rfl⟩
  · rw [if_neg (by omega), if_neg (by omega)]
    exact ⟨rfl, rfl⟩
  · rw [if_neg (by omega), if_pos (by omega)]
    have : (-(i : ℤ) + c.functions.length).toNat = c.functions.length - i := by omega
    rw [this]
    exact ⟨rfl, rfl⟩
  · rw [if_neg (by omega), if_neg (by omega)]
    exact ⟨rfl, rfl⟩

example : (Coll.new [FnItem.fn 1, .coll [.fn 2, .seq [.fn 3], .coll []], .fn 4] : Coll ℕ).call (fun n d => .ok (d * 10 + n)) 0 = .ok 1234 := by
  obtain ⟨fs, h1, -, -, h2⟩ := C59_flatten (F := ℕ) (D := ℕ) (fun n d => .ok (d * 10 + n)) [FnItem.fn 1, .coll [.fn 2, .seq [.fn 3], .coll []], .fn 4]
  rw [h2, ← flattens_unwrapAll h1]
  decide +kernel

/-! ## C60 -/

/-- C60: a wrapped function with a filter succeeds exactly when the filter succeeds on every dataset and the function on every dataset that passes; then each dataset
is replaced in place by the function's results, or stays if it does not pass the filter. -/
theorem C60_filtered {α : Type} (filter : α → Except Err Bool) (f : α → Except Err (List α)) (data out : List α) :
    wrapFiltered filter f data = .ok out ↔
      ∃ parts : List (List α), List.Forall₂ (fun ds part => (filter ds = .ok true ∧ f ds = .ok part) ∨ (filter ds = .ok false ∧ part = [ds])) data parts ∧ out = parts.flatten := by
  unfold wrapFiltered
  rw [flatMapE_ok_iff]
  simp only [mapE_ok_iff]
  have key : ∀ ds part, (do let b ← filter ds; if b then f ds else .ok [ds] : Except Err (List α)) = .ok part ↔
      (filter ds = .ok true ∧ f ds = .ok part) ∨ (filter ds = .ok false ∧ part = [ds]) := by
    intro ds part
    rcases h : filter ds with e | b
    · simp
    · cases b
      · simp [eq_comm]
      · simp
  simp only [key]

/-- C60: without a filter every dataset is replaced by the function's results. -/
theorem C60_unfiltered {α : Type} (f : α → Except Err (List α)) (data out : List α) :
    wrapAll f data = .ok out ↔ ∃ parts : List (List α), List.Forall₂ (fun ds part => f ds = .ok part) data parts ∧ out = parts.flatten := by
  unfold wrapAll
  rw [flatMapE_ok_iff]
  simp only [mapE_ok_iff]

theorem flatMapE_error_iff {α β : Type} {f : α → Except Err (List β)} {l : List α} {e : Err} :
    flatMapE f l = .error e ↔ ∃ pre a post, l = pre ++ a :: post ∧ (∀ x ∈ pre, ∃ r, f x = .ok r) ∧ f a = .error e := by
  induction l with
  | nil => simp [flatMapE]
  | cons a l ih =>
    unfold flatMapE
    rcases h : f a with e' | b
    · constructor
      · intro he
        cases he
        exact ⟨[], a, l, rfl, by simp, h⟩
      · rintro ⟨pre, x, post, he, hp, hx⟩
        cases pre with
        | nil =>
          cases he
          rw [h] at hx
          cases hx
          rfl
        | cons y pre =>
          cases he
          obtain ⟨r, hr⟩ := hp a (by simp)
          rw [h] at hr
          cases hr
    · have hred : ((do let b ← (.ok b : Except Err (List β)); let r ← flatMapE f l; return b ++ r) = (.error e : Except Err (List β))) ↔ flatMapE f l = .error e := by
        rcases hl : flatMapE f l with e' | r
        · simp
        · simp
      rw [hred, ih]
      constructor
      · rintro ⟨pre, x, post, rfl, hp, hx⟩
        refine ⟨a :: pre, x, post, rfl, ?_, hx⟩
        intro y hy
        rcases List.mem_cons.mp hy with rfl | hy
        · exact ⟨b, h⟩
        · exact hp y hy
      · rintro ⟨pre, x, post, he, hp, hx⟩
        cases pre with
        | nil =>
          cases he
          rw [h] at hx
          cases hx
        | cons y pre =>
          cases he
          exact ⟨pre, x, post, rfl, fun y hy => hp y (by simp [hy]), hx⟩

/-- C60: the whole step fails with the error of the first dataset on which the filter or the function fails. -/
theorem C60_failure {α : Type} (filter : α → Except Err Bool) (f : α → Except Err (List α)) (data : List α) (e : Err) :
    wrapFiltered filter f data = .error e ↔
      ∃ pre ds post, data = pre ++ ds :: post ∧ (∀ x ∈ pre, filter x = .ok false ∨ (filter x = .ok true ∧ ∃ r, f x = .ok r)) ∧
        (filter ds = .error e ∨ (filter ds = .ok true ∧ f ds = .error e)) := by
  unfold wrapFiltered
  rw [flatMapE_error_iff]
  have key : ∀ x, (∃ r, (do let b ← filter x; if b then f x else .ok [x] : Except Err (List α)) = .ok r) ↔ (filter x = .ok false ∨ (filter x = .ok true ∧ ∃ r, f x = .ok r)) := by
    intro x
    rcases h : filter x with e' | b
    · simp
    · cases b <;> simp
  have key2 : ∀ x, (do let b ← filter x; if b then f x else .ok [x] : Except Err (List α)) = .error e ↔ (filter x = .error e ∨ (filter x = .ok true ∧ f x = .error e)) := by
    intro x
    rcases h : filter x with e' | b
    · simp
    · cases b <;> simp
  simp only [key, key2]

example : wrapFiltered (fun n => .ok (decide (n % 2 = 0))) (fun n => .ok [n, n + 10]) [1, 2, 3, 4] = .ok [1, 2, 12, 3, 4, 14] := by decide +kernel

/-! ## C61 -/

theorem mem_pyRange_pos {a b c x : ℤ} (hc : 0 < c) : x ∈ pyRange a b c ↔ ∃ k : ℕ, x = a + k * c ∧ x < b := by
  unfold pyRange
  rw [if_pos hc]
  simp only [List.mem_map, List.mem_range]
  constructor
  · rintro ⟨i, hi, rfl⟩
    refine ⟨i, rfl, ?_⟩
    have h1 : (i : ℤ) + 1 ≤ (b - a + c - 1) / c := by omega
    have h2 := (Int.le_ediv_iff_mul_le hc).mp h1
    have : ((i : ℤ) + 1) * c = i * c + c := by ring
    omega
  · rintro ⟨k, rfl, hk⟩
    refine ⟨k, ?_, rfl⟩
    have : (k : ℤ) + 1 ≤ (b - a + c - 1) / c := by
      rw [Int.le_ediv_iff_mul_le hc]
      have : ((k : ℤ) + 1) * c = k * c + c := by ring
      omega
    omega

theorem mem_pyRange_neg {a b c x : ℤ} (hc : c < 0) : x ∈ pyRange a b c ↔ ∃ k : ℕ, x = a + k * c ∧ b < x := by
  unfold pyRange
  rw [if_neg (by omega)]
  simp only [List.mem_map, List.mem_range]
  have hc' : 0 < -c := by omega
  constructor
  · rintro ⟨i, hi, rfl⟩
    refine ⟨i, rfl, ?_⟩
    have h1 : (i : ℤ) + 1 ≤ (a - b - c - 1) / (-c) := by omega
    have h2 := (Int.le_ediv_iff_mul_le hc').mp h1
    have : ((i : ℤ) + 1) * -c = -(i * c) - c := by ring
    omega
  · rintro ⟨k, rfl, hk⟩
    refine ⟨k, ?_, rfl⟩
    have : (k : ℤ) + 1 ≤ (a - b - c - 1) / (-c) := by
      rw [Int.le_ediv_iff_mul_le hc']
      have : ((k : ℤ) + 1) * -c = -(k * c) - c := by ring
      omega
    omega

theorem splitColon_none {s : List Char} (h : ':' ∉ s) : splitColon s = [s] := by
  induction s with
  | nil => rfl
  | cons c s ih =>
    have hc : c ≠ ':' := fun he => h (by simp [he])
    have hs : ':' ∉ s := fun he => h (by simp [he])
    unfold splitColon
    rw [if_neg hc, ih hs]

theorem splitColon_append {a s : List Char} (h : ':' ∉ a) : splitColon (a ++ ':' :: s) = a :: splitColon s := by
  induction a with
  | nil => rw [List.nil_append, splitColon, if_pos rfl]
  | cons c a ih =>
    have hc : c ≠ ':' := fun he => h (by simp [he])
    have ha : ':' ∉ a := fun he => h (by simp [he])
    rw [List.cons_append, splitColon, if_neg hc, ih ha]

/-- C61: `SaveStrategy("A:B:C")` for texts of integers `a`, `b` and positive `c` answers `True` exactly for `a`, `a + c`, ... up to and including `b`. -/
theorem C61_range {int : List Char → Option ℤ} {A B C : List Char} {a b c : ℤ} (hA : ':' ∉ A) (hB : ':' ∉ B) (hC : ':' ∉ C)
    (ha : int A = some a) (hb : int B = some b) (hc : int C = some c) (hpos : 0 < c) :
    ∃ f, saveStrategy int (.text (A ++ ':' :: (B ++ ':' :: C))) = .ok f ∧ ∀ x : ℕ, f x = true ↔ ∃ k : ℕ, (x : ℤ) = a + k * c ∧ (x : ℤ) ≤ b := by
  unfold saveStrategy
  simp only
  rw [if_pos (by simp), splitColon_append hA, splitColon_append hB, splitColon_none hC]
  have : [A, B, C].mapM int = some [a, b, c] := by simp [List.mapM_cons, ha, hb, hc]
  rw [this]
  simp only [fromRange]
  rw [if_neg (by omega)]
  refine ⟨_, rfl, ?_⟩
  intro x
  rw [decide_eq_true_eq, mem_pyRange_pos hpos]
  simp only [Int.lt_add_one_iff]

/-- C61: with a negative step the top value counts down, and neither `b` nor `b + 1` is selected; a zero step is rejected. -/
theorem C61_other_steps {int : List Char → Option ℤ} {A B C : List Char} {a b c : ℤ} (hA : ':' ∉ A) (hB : ':' ∉ B) (hC : ':' ∉ C)
    (ha : int A = some a) (hb : int B = some b) (hc : int C = some c) :
    (c = 0 → saveStrategy int (.text (A ++ ':' :: (B ++ ':' :: C))) = .error .valueError) ∧
    (c < 0 → ∃ f, saveStrategy int (.text (A ++ ':' :: (B ++ ':' :: C))) = .ok f ∧ ∀ x : ℕ, f x = true ↔ ∃ k : ℕ, (x : ℤ) = a + k * c ∧ b + 1 < (x : ℤ)) := by
  unfold saveStrategy
  simp only
  rw [if_pos (by simp), splitColon_append hA, splitColon_append hB, splitColon_none hC]
  have : [A, B, C].mapM int = some [a, b, c] := by simp [List.mapM_cons, ha, hb, hc]
  rw [this]
  simp only [fromRange]
  refine ⟨fun h => by rw [if_pos h], fun h => ?_⟩
  rw [if_neg (by omega)]
  refine ⟨_, rfl, ?_⟩
  intro x
  rw [decide_eq_true_eq, mem_pyRange_neg h]

/-- C61: `SaveStrategy("A:B")` answers `True` exactly from `a` to `b`, both included. -/
theorem C61_interval {int : List Char → Option ℤ} {A B : List Char} {a b : ℤ} (hA : ':' ∉ A) (hB : ':' ∉ B) (ha : int A = some a) (hb : int B = some b) :
    ∃ f, saveStrategy int (.text (A ++ ':' :: B)) = .ok f ∧ ∀ x : ℕ, f x = true ↔ a ≤ x ∧ (x : ℤ) ≤ b := by
  unfold saveStrategy
  simp only
  rw [if_pos (by simp), splitColon_append hA, splitColon_none hB]
  have : [A, B].mapM int = some [a, b] := by simp [List.mapM_cons, ha, hb]
  rw [this]
  simp only [fromRange]
  refine ⟨_, rfl, ?_⟩
  intro x
  rw [decide_eq_true_eq, mem_pyRange_pos (by omega)]
  constructor
  · rintro ⟨k, h1, h2⟩
    omega
  · rintro ⟨h1, h2⟩
    exact ⟨(x - a : ℤ).toNat, by omega, by omega⟩

theorem everyNth_spec (n : ℤ) :
    (n < 1 → everyNth n = .error .valueError) ∧ (1 ≤ n → ∃ f, everyNth n = .ok f ∧ ∀ x : ℕ, f x = true ↔ n ∣ x) := by
  unfold everyNth
  refine ⟨fun h => if_pos h, fun h => ?_⟩
  rw [if_neg (by omega)]
  refine ⟨_, rfl, fun x => ?_⟩
  rw [decide_eq_true_eq, Int.dvd_iff_emod_eq_zero]

/-- C61: a single number `n`, given as a number or as text, selects the multiples of `n`, and is rejected if it is less than one. Text that is not a number is rejected. -/
theorem C61_every (int : List Char → Option ℤ) (A : List Char) (hA : ':' ∉ A) (n : ℤ) :
    (n < 1 → saveStrategy int (.int n) = .error .valueError) ∧
    (1 ≤ n → ∃ f, saveStrategy int (.int n) = .ok f ∧ ∀ x : ℕ, f x = true ↔ n ∣ x) ∧
    (int A = some n → saveStrategy int (.text A) = saveStrategy int (.int n)) ∧
    (int A = none → saveStrategy int (.text A) = .error .valueError) := by
  refine ⟨(everyNth_spec n).1, (everyNth_spec n).2, fun h => ?_, fun h => ?_⟩
  · simp only [saveStrategy, if_neg hA, h]
  · simp only [saveStrategy, if_neg hA, h]

/-- C61 is false for the default: the documentation promises every five functions, the code saves every thousand. -/
theorem C61_default (int : List Char → Option ℤ) :
    ∃ f, saveStrategy int .none = .ok f ∧ (∀ x, f x = true ↔ 1000 ∣ x) ∧ f 5 = false := by
  refine ⟨_, rfl, fun x => ?_, by decide⟩
  rw [decide_eq_true_eq, saveDefault, Nat.dvd_iff_mod_eq_zero]

/-- Python's `int` on texts of decimalText. -/
def Spec.decimalText (s : List Char) : Option ℤ :=
  if s ≠ [] ∧ s.all Char.isDigit then some (s.foldl (fun n c => n * 10 + (c.toNat - 48 : ℕ)) 0) else none

example : ∃ f, saveStrategy decimalText (.text "2:8:3".toList) = .ok f ∧ (List.range 12).filter f = [2, 5, 8] := ⟨_, rfl, by decide +kernel⟩
example : decimalText "2".toList = some 2 ∧ decimalText "8".toList = some 8 ∧ decimalText "3".toList = some 3 := by decide +kernel

end Ocelot
