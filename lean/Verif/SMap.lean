import Mathlib.Algebra.BigOperators.Group.List.Basic
import Mathlib.Algebra.Order.BigOperators.Group.List
import Mathlib.Algebra.Order.Ring.Rat
import Mathlib.Data.String.Basic
import Mathlib.Data.List.Lex
import Mathlib.Tactic.Linarith
import Mathlib.Tactic.Ring
import Mathlib.Tactic.FieldSimp
import Mathlib.Algebra.Order.Field.Basic
import Mathlib.Order.Defs.LinearOrder

/-!
# `std::map` as a list of pairs sorted by key

Only the operations used by fisx: `operator[]` as assignment (`insert`), `find` (`find?`), `erase`
and iteration in key order (the list itself).
-/

namespace Fisx

/-- A `std::map<κ, ν>`: the sequence of its entries in iteration order. -/
abbrev SMap (κ ν : Type*) := List (κ × ν)

namespace SMap

variable {κ ν : Type*} [LinearOrder κ]

/-- The representation invariant of `std::map`: keys strictly increasing. -/
def Sorted (m : SMap κ ν) : Prop := m.Pairwise (fun a b => a.1 < b.1)

/-- `m.find(k)`: the stored value, or `none` for `end()`. -/
def find? (m : SMap κ ν) (k : κ) : Option ν :=
  match m with
  | [] => none
  | (k', v) :: t => if k' = k then some v else find? t k

/-- `m[k] = v`: overwrite or insert at the sorted position. -/
def insert (m : SMap κ ν) (k : κ) (v : ν) : SMap κ ν :=
  match m with
  | [] => [(k, v)]
  | (k', v') :: t =>
    if k < k' then (k, v) :: (k', v') :: t
    else if k' = k then (k, v) :: t
    else (k', v') :: insert t k v

/-- `m.erase(k)`. -/
def erase (m : SMap κ ν) (k : κ) : SMap κ ν := m.filter (fun e => ¬ e.1 = k)

/-- The keys in iteration order. -/
def keys (m : SMap κ ν) : List κ := m.map Prod.fst

/-- Build a map by successive `m[k] = v` assignments. -/
def ofList (l : List (κ × ν)) : SMap κ ν := l.foldl (fun m e => insert m e.1 e.2) []

/-- `m.find(k) != m.end()`. -/
def mem (m : SMap κ ν) (k : κ) : Bool := (find? m k).isSome

/-- Sum of the values, as accumulated by a loop over the map. -/
def total {K : Type*} [AddMonoid K] (m : SMap κ K) : K := (m.map Prod.snd).sum

omit [LinearOrder κ] in
@[simp] theorem total_nil {K : Type*} [AddMonoid K] : total ([] : SMap κ K) = 0 := rfl
omit [LinearOrder κ] in
@[simp] theorem total_cons {K : Type*} [AddMonoid K] (e : κ × K) (m : SMap κ K) :
    total (e :: m) = e.2 + total m := by simp [total]

@[simp] theorem find?_nil (k : κ) : find? ([] : SMap κ ν) k = none := rfl
@[simp] theorem find?_cons (e : κ × ν) (m : SMap κ ν) (k : κ) :
    find? (e :: m) k = if e.1 = k then some e.2 else find? m k := by
  cases e; rfl

@[simp] theorem sorted_nil : Sorted ([] : SMap κ ν) := List.Pairwise.nil

theorem sorted_cons {e : κ × ν} {m : SMap κ ν} :
    Sorted (e :: m) ↔ (∀ x ∈ m, e.1 < x.1) ∧ Sorted m := List.pairwise_cons

theorem find?_eq_none_iff (m : SMap κ ν) (k : κ) : find? m k = none ↔ ∀ e ∈ m, e.1 ≠ k := by
  induction m with
  | nil => simp
  | cons e t ih =>
    by_cases h : e.1 = k
    · simp [h]
    · simp [h, ih]

theorem mem_of_find? {m : SMap κ ν} {k : κ} {v : ν} (h : find? m k = some v) : (k, v) ∈ m := by
  induction m with
  | nil => simp at h
  | cons e t ih =>
    rw [find?_cons] at h
    by_cases hk : e.1 = k
    · simp [hk] at h
      have : e = (k, v) := Prod.ext hk h
      simp [this]
    · simp only [hk, if_false] at h
      exact List.mem_cons_of_mem _ (ih h)

theorem find?_of_mem {m : SMap κ ν} (hs : Sorted m) {k : κ} {v : ν} (h : (k, v) ∈ m) :
    find? m k = some v := by
  induction m with
  | nil => simp at h
  | cons e t ih =>
    rw [sorted_cons] at hs
    rcases List.mem_cons.1 h with h | h
    · subst h; simp
    · have := hs.1 _ h
      rw [find?_cons, if_neg (ne_of_lt this)]
      exact ih hs.2 h

/-- In a list of pairs with distinct keys (sorted or not) `find?` returns the entry of a key. -/
theorem find?_of_mem_nodup {l : SMap κ ν} (hnd : (l.map Prod.fst).Nodup) {k : κ} {v : ν}
    (h : (k, v) ∈ l) : find? l k = some v := by
  induction l with
  | nil => simp at h
  | cons e t ih =>
    simp only [List.map_cons, List.nodup_cons] at hnd
    rcases List.mem_cons.1 h with h | h
    · subst h; simp
    · have : e.1 ≠ k := by
        intro he
        apply hnd.1
        rw [he]
        exact List.mem_map_of_mem (f := Prod.fst) h
      rw [find?_cons, if_neg this]
      exact ih hnd.2 h

theorem find?_iff_mem {m : SMap κ ν} (hs : Sorted m) {k : κ} {v : ν} :
    find? m k = some v ↔ (k, v) ∈ m := ⟨mem_of_find?, find?_of_mem hs⟩

@[simp] theorem find?_insert (m : SMap κ ν) (k k' : κ) (v : ν) :
    find? (insert m k v) k' = if k = k' then some v else find? m k' := by
  induction m with
  | nil => simp [insert]
  | cons e t ih =>
    obtain ⟨ke, ve⟩ := e
    unfold insert
    split
    · simp
    · split
      · rename_i h1 h2
        subst h2
        simp only [find?_cons]
        split <;> simp_all
      · rename_i h1 h2
        rw [find?_cons, find?_cons, ih]
        by_cases h3 : k = k'
        · subst h3; simp [h2]
        · simp [h3]

theorem mem_insert {m : SMap κ ν} {k : κ} {v : ν} {x : κ × ν} (h : x ∈ insert m k v) :
    x = (k, v) ∨ x ∈ m := by
  induction m with
  | nil => simpa [insert] using h
  | cons e t ih =>
    obtain ⟨ke, ve⟩ := e
    unfold insert at h
    split at h
    · simpa using h
    · split at h
      · rcases List.mem_cons.1 h with h | h
        · exact Or.inl h
        · exact Or.inr (List.mem_cons_of_mem _ h)
      · rcases List.mem_cons.1 h with h | h
        · subst h; simp
        · rcases ih h with h | h
          · exact Or.inl h
          · exact Or.inr (List.mem_cons_of_mem _ h)

theorem insert_sorted {m : SMap κ ν} (hs : Sorted m) (k : κ) (v : ν) : Sorted (insert m k v) := by
  induction m with
  | nil => simp [insert, Sorted]
  | cons e t ih =>
    obtain ⟨ke, ve⟩ := e
    have hs' := hs
    rw [sorted_cons] at hs
    unfold insert
    split
    · rename_i h
      rw [sorted_cons]
      refine ⟨?_, hs'⟩
      intro x hx
      rcases List.mem_cons.1 hx with hx | hx
      · subst hx; exact h
      · exact lt_trans h (hs.1 x hx)
    · split
      · rename_i h1 h2
        subst h2
        rw [sorted_cons]
        exact ⟨hs.1, hs.2⟩
      · rename_i h1 h2
        rw [sorted_cons]
        refine ⟨?_, ih hs.2⟩
        intro x hx
        rcases mem_insert hx with hx | hx
        · subst hx
          exact lt_of_le_of_ne (not_lt.1 h1) h2
        · exact hs.1 x hx

theorem mem_insert_iff {m : SMap κ ν} (hs : Sorted m) {k : κ} {v : ν} {x : κ × ν} :
    x ∈ insert m k v ↔ x = (k, v) ∨ (x ∈ m ∧ x.1 ≠ k) := by
  obtain ⟨a, b⟩ := x
  rw [← find?_iff_mem (insert_sorted hs k v), find?_insert, ← find?_iff_mem hs]
  by_cases h : k = a
  · subst h; simp [eq_comm]
  · have h' : ¬ a = k := fun hh => h hh.symm
    simp [h, h']

/-- Two maps with the same lookups are the same map. -/
theorem ext_find? {m n : SMap κ ν} (hm : Sorted m) (hn : Sorted n)
    (h : ∀ k, find? m k = find? n k) : m = n := by
  induction m generalizing n with
  | nil =>
    cases n with
    | nil => rfl
    | cons e t => have := h e.1; simp at this
  | cons e t ih =>
    cases n with
    | nil => have := h e.1; simp at this
    | cons f s =>
      have hm' := sorted_cons.1 hm
      have hn' := sorted_cons.1 hn
      have hk : e.1 = f.1 := by
        rcases lt_trichotomy e.1 f.1 with hlt | heq | hgt
        · exfalso
          have h1 := h e.1
          simp only [find?_cons, if_true, if_neg (ne_of_gt hlt)] at h1
          have := hn'.1 _ (mem_of_find? h1.symm)
          exact absurd (lt_trans hlt this) (lt_irrefl _)
        · exact heq
        · exfalso
          have h1 := h f.1
          simp only [find?_cons, if_true, if_neg (ne_of_gt hgt)] at h1
          have := hm'.1 _ (mem_of_find? h1)
          exact absurd (lt_trans hgt this) (lt_irrefl _)
      have hv : e.2 = f.2 := by
        have h1 := h e.1
        simp [hk] at h1
        exact h1
      have hef : e = f := Prod.ext hk hv
      subst hef
      congr 1
      apply ih hm'.2 hn'.2
      intro k
      have h1 := h k
      simp only [find?_cons] at h1
      by_cases hke : e.1 = k
      · subst hke
        have a1 : find? t e.1 = none :=
          (find?_eq_none_iff _ _).2 (fun x hx => ne_of_gt (hm'.1 x hx))
        have a2 : find? s e.1 = none :=
          (find?_eq_none_iff _ _).2 (fun x hx => ne_of_gt (hn'.1 x hx))
        rw [a1, a2]
      · simpa [hke] using h1

/-- Inserting a new key adds its value to the total. -/
theorem total_insert_new {K : Type*} [AddCommMonoid K] {m : SMap κ K} {k : κ} {v : K}
    (h : find? m k = none) : total (insert m k v) = v + total m := by
  induction m with
  | nil => simp [insert, total]
  | cons e t ih =>
    obtain ⟨ke, ve⟩ := e
    rw [find?_cons] at h
    unfold insert
    by_cases hk : ke = k
    · simp [hk] at h
    · simp only [hk, if_false] at h ⊢
      split
      · simp
      · rw [total_cons, ih h, total_cons]; simp only; exact add_left_comm _ _ _

theorem erase_sorted {m : SMap κ ν} (hs : Sorted m) (k : κ) : Sorted (erase m k) :=
  List.Pairwise.filter _ hs

theorem find?_erase (m : SMap κ ν) (k k' : κ) :
    find? (erase m k) k' = if k = k' then none else find? m k' := by
  induction m with
  | nil => simp [erase]
  | cons e t ih =>
    unfold erase at ih ⊢
    by_cases h : e.1 = k
    · rw [List.filter_cons_of_neg (by simp [h]), ih, find?_cons]
      by_cases h2 : k = k'
      · simp [h2]
      · simp [h2, h]
    · rw [List.filter_cons_of_pos (by simp [h]), find?_cons, find?_cons, ih]
      by_cases h2 : k = k'
      · subst h2; simp [h]
      · simp [h2]

theorem foldl_insert_sorted (l : List (κ × ν)) {m : SMap κ ν} (hs : Sorted m) :
    Sorted (l.foldl (fun m e => insert m e.1 e.2) m) := by
  induction l generalizing m with
  | nil => exact hs
  | cons e t ih => exact ih (insert_sorted hs _ _)

theorem ofList_sorted (l : List (κ × ν)) : Sorted (ofList l) :=
  foldl_insert_sorted l sorted_nil

theorem foldl_insert_mem (l : List (κ × ν)) {m : SMap κ ν} {x : κ × ν}
    (h : x ∈ l.foldl (fun m e => insert m e.1 e.2) m) : x ∈ l ∨ x ∈ m := by
  induction l generalizing m with
  | nil => exact Or.inr h
  | cons e t ih =>
    rcases ih h with h | h
    · exact Or.inl (List.mem_cons_of_mem _ h)
    · rcases mem_insert h with h | h
      · left; simp [h]
      · exact Or.inr h

theorem ofList_mem {l : List (κ × ν)} {x : κ × ν} (h : x ∈ ofList l) : x ∈ l := by
  rcases foldl_insert_mem l h with h | h
  · exact h
  · simp at h

/-- Insertions of pairwise distinct keys, none of which is already present, keep every entry. -/
theorem foldl_insert_find? (l : List (κ × ν)) (m : SMap κ ν) (k : κ)
    (hnd : (l.map Prod.fst).Nodup) :
    find? (l.foldl (fun m e => insert m e.1 e.2) m) k
      = match find? l k with
        | some v => some v
        | none => find? m k := by
  induction l generalizing m with
  | nil => simp
  | cons e t ih =>
    simp only [List.map_cons, List.nodup_cons] at hnd
    rw [List.foldl_cons, ih _ hnd.2, find?_insert, find?_cons]
    by_cases h : e.1 = k
    · have : find? t k = none := by
        rw [find?_eq_none_iff]
        intro x hx hxk
        apply hnd.1
        rw [h, ← hxk]
        exact List.mem_map_of_mem hx
      simp [this, h]
    · simp [h]

theorem foldl_insert_total {K : Type*} [AddCommMonoid K] (l : List (κ × K)) (m : SMap κ K)
    (hnd : (l.map Prod.fst).Nodup) (hdisj : ∀ e ∈ l, find? m e.1 = none) :
    total (l.foldl (fun m e => insert m e.1 e.2) m) = (l.map Prod.snd).sum + total m := by
  induction l generalizing m with
  | nil => simp
  | cons e t ih =>
    simp only [List.map_cons, List.nodup_cons] at hnd
    rw [List.foldl_cons, ih _ hnd.2]
    · rw [total_insert_new (hdisj e (by simp)), List.map_cons, List.sum_cons]
      rw [← add_assoc, add_comm _ e.2]
    · intro x hx
      rw [find?_insert]
      have : e.1 ≠ x.1 := by
        intro h
        apply hnd.1
        rw [h]
        exact List.mem_map_of_mem hx
      rw [if_neg this]
      exact hdisj x (List.mem_cons_of_mem _ hx)

theorem ofList_total {K : Type*} [AddCommMonoid K] (l : List (κ × K))
    (hnd : (l.map Prod.fst).Nodup) : total (ofList l) = (l.map Prod.snd).sum := by
  unfold ofList
  rw [foldl_insert_total l [] hnd (by simp)]
  simp

theorem keys_nodup {m : SMap κ ν} (hs : Sorted m) : (m.map Prod.fst).Nodup := by
  unfold Sorted at hs
  rw [List.nodup_iff_pairwise_ne, List.pairwise_map]
  exact hs.imp (fun h => ne_of_lt h)

/-- Rebuilding a sorted map entry by entry gives it back. -/
theorem ofList_eq_self {m : SMap κ ν} (hs : Sorted m) : ofList m = m := by
  apply ext_find? (ofList_sorted m) hs
  intro k
  unfold ofList
  rw [foldl_insert_find? _ _ _ (keys_nodup hs)]
  cases h : find? m k <;> simp

omit [LinearOrder κ] in
theorem total_nonneg {K : Type*} [AddCommMonoid K] [PartialOrder K] [IsOrderedAddMonoid K]
    {m : SMap κ K} (h : ∀ e ∈ m, 0 ≤ e.2) : 0 ≤ total m := by
  unfold total
  apply List.sum_nonneg
  intro x hx
  obtain ⟨e, he, rfl⟩ := List.mem_map.1 hx
  exact h e he

/-- Overwriting or inserting a value moves the total by the difference with what was stored. -/
theorem total_insert {K : Type*} [AddCommMonoid K] (m : SMap κ K) (k : κ) (v : K) (hs : Sorted m) :
    total (insert m k v) + (find? m k).getD 0 = v + total m := by
  induction m with
  | nil => simp [insert, total]
  | cons e t ih =>
    obtain ⟨ke, ve⟩ := e
    have hs' := sorted_cons.1 hs
    rw [find?_cons]
    unfold insert
    by_cases hk : ke = k
    · subst hk
      simp only [lt_irrefl, if_false, if_true, total_cons, Option.getD_some]
      rw [add_assoc, add_comm (total t)]
    · simp only [hk, if_false]
      split
      · rename_i hlt
        have : find? t k = none := (find?_eq_none_iff _ _).2
          (fun x hx => ne_of_gt (lt_trans hlt (hs'.1 x hx)))
        simp [this]
      · rw [total_cons, total_cons]
        simp only
        rw [add_assoc, ih hs'.2, add_left_comm]

/-- Inserting a key above all the others appends it. -/
theorem insert_append_last {m : SMap κ ν} {k : κ} {v : ν} (h : ∀ x ∈ m, x.1 < k) :
    insert m k v = m ++ [(k, v)] := by
  induction m with
  | nil => rfl
  | cons e t ih =>
    obtain ⟨ke, ve⟩ := e
    have h1 : ke < k := h (ke, ve) (by simp)
    unfold insert
    rw [if_neg (not_lt.2 (le_of_lt h1)), if_neg (ne_of_lt h1),
      ih (fun x hx => h x (List.mem_cons_of_mem _ hx))]
    rfl

/-- The usual loop of fisx, "for each entry of a map satisfying a test, `out[key] = g(entry)`", written
as a filter. -/
theorem foldl_condInsert {ω : Type*} (p : κ × ν → Prop) [DecidablePred p] (g : κ × ν → ω)
    {m : SMap κ ν} (hs : Sorted m) :
    m.foldl (fun (acc : SMap κ ω) e => if p e then insert acc e.1 (g e) else acc) []
      = (m.filter (fun e => decide (p e))).map (fun e => (e.1, g e)) := by
  have key : ∀ (m : SMap κ ν) (acc : SMap κ ω), Sorted m → (∀ x ∈ acc, ∀ e ∈ m, x.1 < e.1) →
      m.foldl (fun (acc : SMap κ ω) e => if p e then insert acc e.1 (g e) else acc) acc
      = acc ++ (m.filter (fun e => decide (p e))).map (fun e => (e.1, g e)) := by
    intro m
    induction m with
    | nil => intro acc _ _; simp
    | cons e t ih =>
      intro acc hs hlt
      have hs' := sorted_cons.1 hs
      rw [List.foldl_cons]
      by_cases hp : p e
      · rw [if_pos hp, insert_append_last (fun x hx => hlt x hx e (by simp)), ih _ hs'.2]
        · simp [List.filter_cons_of_pos, hp]
        · intro x hx f hf
          rcases List.mem_append.1 hx with hx | hx
          · exact hlt x hx f (List.mem_cons_of_mem _ hf)
          · simp only [List.mem_singleton] at hx; subst hx; exact hs'.1 f hf
      · rw [if_neg hp, ih _ hs'.2 (fun x hx f hf => hlt x hx f (List.mem_cons_of_mem _ hf))]
        simp [hp]
  have := key m [] hs (by simp)
  simpa using this

theorem sorted_filter {m : SMap κ ν} (hs : Sorted m) (p : κ × ν → Bool) : Sorted (m.filter p) :=
  List.Pairwise.filter _ hs

theorem sorted_mapVal {ω : Type*} {m : SMap κ ν} (hs : Sorted m) (g : κ × ν → ω) :
    Sorted (m.map (fun e => (e.1, g e))) := by
  unfold Sorted at hs ⊢
  rw [List.pairwise_map]
  exact hs

theorem find?_mapVal {ω : Type*} (m : SMap κ ν) (g : κ × ν → ω) (k : κ) :
    find? (m.map (fun e => (e.1, g e))) k = (find? m k).map (fun v => g (k, v)) := by
  induction m with
  | nil => rfl
  | cons e t ih =>
    rw [List.map_cons, find?_cons, find?_cons, ih]
    by_cases h : e.1 = k
    · subst h; simp
    · simp [h]

theorem find?_filter {m : SMap κ ν} (hs : Sorted m) (p : κ × ν → Bool) (k : κ) :
    find? (m.filter p) k = (find? m k).filter (fun v => p (k, v)) := by
  cases h : find? m k with
  | none =>
    rw [find?_eq_none_iff] at h
    simp only [Option.filter_none]
    rw [find?_eq_none_iff]
    intro e he
    exact h e (List.mem_of_mem_filter he)
  | some v =>
    have hm := mem_of_find? h
    by_cases hp : p (k, v)
    · rw [find?_of_mem (sorted_filter hs p) (List.mem_filter.2 ⟨hm, hp⟩)]
      exact (if_pos hp).symm
    · have : find? (m.filter p) k = none := by
        rw [find?_eq_none_iff]
        intro e he hek
        obtain ⟨he1, he2⟩ := List.mem_filter.1 he
        have : find? m k = some e.2 := find?_of_mem hs (by rw [← hek]; exact he1)
        rw [h] at this
        obtain rfl : v = e.2 := by simpa using this
        rw [← hek] at hp
        exact hp he2
      rw [this]
      exact (if_neg hp).symm

end SMap

/-- Labels and names as character lists (`std::string`, ASCII). -/
abbrev Str := List Char

/-- `toupper` on each character (fisx_shell.cpp:134-141, fisx_epdl97.cpp has the same helper). -/
def Str.upper (s : Str) : Str := s.map Char.toUpper

end Fisx
