import Verif.ElementCache
import Verif.ElementProps
import Verif.LibraryProps
import Mathlib.Data.Finset.Card
import Mathlib.Data.Finset.Dedup

/-!
# The number of energies in the calculation cache (property C153)
-/

set_option linter.unusedSectionVars false

namespace Fisx
namespace Element

variable {K : Type} [Field K] [LinearOrder K] [IsStrictOrderedRing K] [Trans K]

/-- fisx_element.cpp:1752-1755, `getCacheSize`. -/
def getCacheSize (e : Element K) : Nat := e.muCache.length

/-- fisx_element.cpp:1656-1666, `isCacheEnabled`. -/
def isCacheEnabled (e : Element K) : Int := if e.cacheOn then 1 else 0

/-- fisx_element.cpp:1643-1646, `isCascadeCacheFilled`. -/
def isCascadeCacheFilled (e : Element K) : Nat := e.cascadeCache.length

/-- The energies of a cache. -/
def held {ν : Type} (m : SMap K ν) : Finset K := (m.map Prod.fst).toFinset

theorem held_card {ν : Type} {m : SMap K ν} (h : SMap.Sorted m) : (held m).card = m.length := by
  unfold held
  rw [List.toFinset_card_of_nodup (SMap.keys_nodup h), List.length_map]

theorem mem_held {ν : Type} {m : SMap K ν} {x : K} : x ∈ held m ↔ m.mem x = true := by
  unfold held
  rw [List.mem_toFinset]
  exact ⟨keys_mem, mem_keys⟩

theorem held_insert {ν : Type} (m : SMap K ν) (x : K) (v : ν) : held (m.insert x v) = insert x (held m) := by
  ext y
  rw [mem_held, Finset.mem_insert, mem_held]
  unfold SMap.mem
  rw [SMap.find?_insert]
  by_cases h : x = y
  · subst h; simp
  · rw [if_neg h]
    constructor
    · exact fun h' => Or.inr h'
    · rintro (h' | h')
      · exact absurd h'.symm h
      · exact h'

theorem held_of_mem {ν : Type} {m : SMap K ν} {x : K} (h : m.mem x = true) : insert x (held m) = held m :=
  Finset.insert_eq_self.2 (mem_held.2 h)

theorem held_nil {ν : Type} : held ([] : SMap K ν) = ∅ := rfl

theorem fillLoop_held : ∀ (l : List K) (e : Element K), (fillLoop e l).1 = .ok () →
    held (fillLoop e l).2.muCache = held e.muCache ∪ l.toFinset ∧
    held (fillLoop e l).2.excCache = held e.excCache ∪ l.toFinset
  | [], e, _ => by simp [fillLoop]
  | x :: rest, e, h => by
    unfold fillLoop at h ⊢
    cases hm : getMu e x with
    | throw t => rw [hm] at h; cases h
    | ub t => rw [hm] at h; cases h
    | diverge => rw [hm] at h; cases h
    | ok m =>
      rw [hm] at h
      dsimp only at h ⊢
      cases hf : getFactors { e with muCache := e.muCache.insert x m } x 1 with
      | throw t => rw [hf] at h; cases h
      | ub t => rw [hf] at h; cases h
      | diverge => rw [hf] at h; cases h
      | ok f =>
        rw [hf] at h
        dsimp only at h ⊢
        obtain ⟨h1, h2⟩ := fillLoop_held rest _ h
        rw [h1, h2]
        dsimp only
        rw [held_insert, held_insert, List.toFinset_cons]
        constructor <;> (ext y; simp only [Finset.mem_union, Finset.mem_insert]; tauto)

/-- What a successful loop of updateCache did. -/
structure Updated (e r : Element K) (l : List K) : Prop where
  keeps : ∀ x m, e.muCache.find? x = some m → r.muCache.find? x = some m
  keepsExc : ∀ x f, e.excCache.find? x = some f → r.excCache.find? x = some f
  subset : held r.muCache ⊆ held e.muCache ∪ l.toFinset
  size : (held r.muCache).card = min cacheMaximumSize (held e.muCache ∪ l.toFinset).card

theorem updateLoop_spec : ∀ (l : List K) (e : Element K), SMap.Sorted e.muCache → e.muCache.length ≤ cacheMaximumSize →
    (updateLoop e l).1 = .ok () → Updated e (updateLoop e l).2 l
  | [], e, hs, hlen, _ => by
    refine ⟨fun _ _ h => h, fun _ _ h => h, by simp [updateLoop], ?_⟩
    simp only [updateLoop, List.toFinset_nil, Finset.union_empty, held_card hs]
    omega
  | x :: rest, e, hs, hlen, h => by
    unfold updateLoop at h ⊢
    by_cases hlt : e.muCache.length < cacheMaximumSize
    · rw [if_pos hlt] at h ⊢
      dsimp only at h ⊢
      have finish : ∀ e1 e2 : Element K, held e1.muCache = insert x (held e.muCache) → SMap.Sorted e1.muCache →
          (∀ y m, e.muCache.find? y = some m → e1.muCache.find? y = some m) → e2.muCache = e1.muCache →
          (∀ y f, e.excCache.find? y = some f → e2.excCache.find? y = some f) →
          (updateLoop e2 rest).1 = .ok () → Updated e (updateLoop e2 rest).2 (x :: rest) := by
        intro e1 e2 hh hs1 hkeep h2 hx hok
        have hlen1 : e1.muCache.length ≤ cacheMaximumSize := by
          rw [← held_card hs1, hh]
          have := Finset.card_insert_le x (held e.muCache)
          rw [held_card hs] at this
          omega
        have ih := updateLoop_spec rest e2 (by rw [h2]; exact hs1) (by rw [h2]; exact hlen1) hok
        refine ⟨fun y m hy => ih.keeps y m (by rw [h2]; exact hkeep y m hy), fun y f hy => ih.keepsExc y f (hx y f hy), ?_, ?_⟩
        · refine ih.subset.trans ?_
          rw [h2, hh, List.toFinset_cons]
          intro y
          simp only [Finset.mem_union, Finset.mem_insert]
          tauto
        · rw [ih.size, h2, hh, List.toFinset_cons]
          congr 2
          ext y
          simp only [Finset.mem_union, Finset.mem_insert]
          tauto
      have hins : ∀ f, e.excCache.mem x ≠ true → ∀ y f', e.excCache.find? y = some f' →
          (e.excCache.insert x f).find? y = some f' := by
        intro f hmem y f' hy
        rw [SMap.find?_insert]
        by_cases hxy : x = y
        · subst hxy
          exfalso
          apply hmem
          simp [SMap.mem, hy]
        · rw [if_neg hxy]; exact hy
      by_cases hmu : e.muCache.mem x = true
      · simp only [if_pos hmu] at h ⊢
        by_cases hmem : e.excCache.mem x = true
        · rw [if_pos hmem] at h ⊢
          exact finish e e (held_of_mem hmu).symm hs (fun _ _ h => h) rfl (fun _ _ h => h) h
        · rw [if_neg hmem] at h ⊢
          cases hf : getFactors e x 1 with
          | throw t => rw [hf] at h; cases h
          | ub t => rw [hf] at h; cases h
          | diverge => rw [hf] at h; cases h
          | ok f =>
            rw [hf] at h
            exact finish e _ (held_of_mem hmu).symm hs (fun _ _ h => h) rfl (hins f hmem) h
      · simp only [if_neg hmu] at h ⊢
        cases hm : getMu e x with
        | throw t => rw [hm] at h; cases h
        | ub t => rw [hm] at h; cases h
        | diverge => rw [hm] at h; cases h
        | ok m =>
          rw [hm] at h
          dsimp only at h ⊢
          have hk : ∀ y m', e.muCache.find? y = some m' → (e.muCache.insert x m).find? y = some m' := by
            intro y m' hy
            rw [SMap.find?_insert]
            by_cases hxy : x = y
            · subst hxy
              exfalso
              apply hmu
              simp [SMap.mem, hy]
            · rw [if_neg hxy]; exact hy
          by_cases hmem : e.excCache.mem x = true
          · rw [if_pos hmem] at h ⊢
            exact finish _ _ (held_insert _ _ _) (SMap.insert_sorted hs _ _) hk rfl (fun _ _ h => h) h
          · rw [if_neg hmem] at h ⊢
            cases hf : getFactors { e with muCache := e.muCache.insert x m } x 1 with
            | throw t => rw [hf] at h; cases h
            | ub t => rw [hf] at h; cases h
            | diverge => rw [hf] at h; cases h
            | ok f =>
              rw [hf] at h
              exact finish { e with muCache := e.muCache.insert x m } _ (held_insert _ _ _) (SMap.insert_sorted hs _ _) hk rfl
                (hins f hmem) h
    · rw [if_neg hlt] at h ⊢
      have ih := updateLoop_spec rest e hs hlen h
      have hsz := held_card hs
      refine ⟨ih.keeps, ih.keepsExc, ?_, ?_⟩
      · refine ih.subset.trans ?_
        rw [List.toFinset_cons]
        intro y
        simp only [Finset.mem_union, Finset.mem_insert]
        tauto
      · rw [ih.size]
        have h1 := Finset.card_le_card (Finset.subset_union_left (s₁ := held e.muCache) (s₂ := rest.toFinset))
        have h2 := Finset.card_le_card (Finset.subset_union_left (s₁ := held e.muCache) (s₂ := (x :: rest).toFinset))
        omega

theorem cacheInv_run {z : Int} {e0 : Element K} (h0 : mk? z = .ok e0) (ops : List (Op K)) :
    CacheInv (run e0 ops) ∧ (run e0 ops).muCache.length ≤ cacheMaximumSize := by
  have hinit : CacheInv e0 ∧ e0.muCache.length ≤ cacheMaximumSize := by
    unfold mk? at h0
    split at h0
    · cases h0
    · cases h0
      exact ⟨⟨SMap.sorted_nil, SMap.sorted_nil, by intro x hx; simp [SMap.mem] at hx⟩, by simp⟩
  have key : ∀ e : Element K, CacheInv e ∧ e.muCache.length ≤ cacheMaximumSize →
      CacheInv (run e ops) ∧ (run e ops).muCache.length ≤ cacheMaximumSize := by
    induction ops with
    | nil => intro e h; exact h
    | cons op r ih => intro e h; exact ih _ (c20_step e h op)
  exact key e0 hinit

theorem fillLoop_sorted (l : List K) (e : Element K) (h : SMap.Sorted e.muCache) : SMap.Sorted (fillLoop e l).2.muCache := by
  induction l generalizing e with
  | nil => exact h
  | cons x rest ih =>
    unfold fillLoop
    cases getMu e x with
    | throw t => exact h
    | ub t => exact h
    | diverge => exact h
    | ok m =>
      dsimp only
      cases getFactors { e with muCache := e.muCache.insert x m } x 1 with
      | ok f => exact ih _ (SMap.insert_sorted h _ _)
      | throw t => exact SMap.insert_sorted h _ _
      | ub t => exact SMap.insert_sorted h _ _
      | diverge => exact SMap.insert_sorted h _ _

/-- **C153** A new element stores nothing, clearing leaves nothing, and a successful fillCache forgets what was stored and
stores exactly the given energies, the first 10000 of them: the size is the number of different ones. -/
theorem C153_fill (e : Element K) (l : List K) :
    (∀ z e0, (mk? z : Outcome (Element K)) = .ok e0 → e0.getCacheSize = 0 ∧ e0.isCacheEnabled = 0) ∧
    e.clearCache.getCacheSize = 0 ∧
    ((e.fillCache l).1 = .ok () →
      (e.fillCache l).2.getCacheSize = (l.take 10000).dedup.length ∧
      (∀ x, (∃ m, (e.fillCache l).2.muCache.find? x = some m) ↔ x ∈ l.take 10000) ∧
      (∀ x, (∃ f, (e.fillCache l).2.excCache.find? x = some f) ↔ x ∈ l.take 10000)) := by
  refine ⟨fun z e0 h0 => ?_, rfl, fun h => ?_⟩
  · unfold mk? at h0
    split at h0
    · cases h0
    · cases h0; exact ⟨rfl, rfl⟩
  · have hmax : cacheMaximumSize = 10000 := rfl
    obtain ⟨h1, h2⟩ := fillLoop_held (l.take cacheMaximumSize) { e.clearCache with cacheOn := false } h
    have hs := fillLoop_sorted (l.take cacheMaximumSize) { e.clearCache with cacheOn := false } SMap.sorted_nil
    have e1 : held (e.fillCache l).2.muCache = (l.take 10000).toFinset := by
      show held (fillLoop _ _).2.muCache = _
      rw [h1]
      show held ([] : SMap K (Mu K)) ∪ _ = _
      rw [held_nil, Finset.empty_union, hmax]
    have e2 : held (e.fillCache l).2.excCache = (l.take 10000).toFinset := by
      show held (fillLoop _ _).2.excCache = _
      rw [h2]
      show held ([] : SMap K (SMap Str (Factor K))) ∪ _ = _
      rw [held_nil, Finset.empty_union, hmax]
    refine ⟨?_, fun x => ?_, fun x => ?_⟩
    · show (fillLoop _ _).2.muCache.length = _
      rw [← held_card hs]
      show (held (e.fillCache l).2.muCache).card = _
      rw [e1, List.card_toFinset]
    · rw [← List.mem_toFinset, ← e1, mem_held, SMap.mem, Option.isSome_iff_exists]
    · rw [← List.mem_toFinset, ← e2, mem_held, SMap.mem, Option.isSome_iff_exists]

/-- **C153** For every history of an element, a successful updateCache keeps what was stored, adds only given energies, and
stores all of them as long as there are no more than 10000 in all: the size is the number of different ones, old and new,
or 10000. -/
theorem C153_update {z : Int} {e0 : Element K} (h0 : mk? z = .ok e0) (ops : List (Op K)) (l : List K)
    (h : ((run e0 ops).updateCache l).1 = .ok ()) :
    (∀ x m, (run e0 ops).muCache.find? x = some m → ((run e0 ops).updateCache l).2.muCache.find? x = some m) ∧
    (∀ x f, (run e0 ops).excCache.find? x = some f → ((run e0 ops).updateCache l).2.excCache.find? x = some f) ∧
    (∀ x m, ((run e0 ops).updateCache l).2.muCache.find? x = some m →
      (∃ m', (run e0 ops).muCache.find? x = some m') ∨ x ∈ l) ∧
    ((run e0 ops).updateCache l).2.getCacheSize =
      min 10000 (((run e0 ops).muCache.map Prod.fst ++ l).dedup.length) ∧
    ((((run e0 ops).muCache.map Prod.fst ++ l).dedup.length ≤ 10000) →
      ∀ x ∈ l, ∃ m, ((run e0 ops).updateCache l).2.muCache.find? x = some m) := by
  obtain ⟨hinv, hlen⟩ := cacheInv_run h0 ops
  have hu := updateLoop_spec l { run e0 ops with cacheOn := false } hinv.muSorted hlen h
  have hsorted : SMap.Sorted ((run e0 ops).updateCache l).2.muCache := by
    have := (cacheInv_run h0 (ops ++ [.updateCache l])).1.muSorted
    rw [run, List.foldl_append] at this
    exact this
  have hmax : cacheMaximumSize = 10000 := rfl
  have hset : held (run e0 ops).muCache ∪ l.toFinset = ((run e0 ops).muCache.map Prod.fst ++ l).toFinset := by
    rw [List.toFinset_append]; rfl
  have hcard : (held (run e0 ops).muCache ∪ l.toFinset).card = ((run e0 ops).muCache.map Prod.fst ++ l).dedup.length := by
    rw [hset, List.card_toFinset]
  have hsize : (held ((run e0 ops).updateCache l).2.muCache).card =
      min 10000 (((run e0 ops).muCache.map Prod.fst ++ l).dedup.length) := by
    have := hu.size
    rw [← hcard, ← hmax]
    exact this
  refine ⟨hu.keeps, hu.keepsExc, fun x m hx => ?_, ?_, fun hle x hx => ?_⟩
  · have : x ∈ held ((run e0 ops).updateCache l).2.muCache := mem_held.2 (by simp [SMap.mem, hx])
    rcases Finset.mem_union.1 (hu.subset this) with h' | h'
    · left
      exact Option.isSome_iff_exists.1 (mem_held.1 h')
    · right; exact List.mem_toFinset.1 h'
  · rw [← hsize, held_card hsorted]; rfl
  · have heq : held ((run e0 ops).updateCache l).2.muCache = held (run e0 ops).muCache ∪ l.toFinset := by
      apply Finset.eq_of_subset_of_card_le hu.subset
      show (held (run e0 ops).muCache ∪ l.toFinset).card ≤ (held ((run e0 ops).updateCache l).2.muCache).card
      rw [hcard, hsize]
      omega
    have : x ∈ held ((run e0 ops).updateCache l).2.muCache := by
      rw [heq]
      exact Finset.mem_union_right _ (List.mem_toFinset.2 hx)
    exact Option.isSome_iff_exists.1 (mem_held.1 this)

/-- **C153** The enabled flag is the last one set, whatever fillings and clearings came between. -/
theorem C153_flag (e : Element K) (flag : Bool) (l : List K) :
    (e.setCacheEnabled flag).isCacheEnabled = (if flag then 1 else 0) ∧
    (e.fillCache l).2.isCacheEnabled = e.isCacheEnabled ∧ (e.updateCache l).2.isCacheEnabled = e.isCacheEnabled ∧
    e.clearCache.isCacheEnabled = e.isCacheEnabled := ⟨rfl, rfl, rfl, rfl⟩

section

attribute [local instance] exampleTrans

/-- The element of the examples, with tables: an energy given twice is stored once, and an update adds one. -/
example :
    let e := run exampleElement tableOps
    (e.fillCache [8, 9, 8]).1 = .ok () ∧ (e.fillCache [8, 9, 8]).2.getCacheSize = 2 ∧
    ((e.fillCache [8, 9, 8]).2.updateCache [9, 17 / 2]).1 = .ok () ∧
    ((e.fillCache [8, 9, 8]).2.updateCache [9, 17 / 2]).2.getCacheSize = 3 := by decide +kernel

end

end Element

namespace Library

variable {K : Type} [Field K] [LinearOrder K] [IsStrictOrderedRing K] [Trans K]

/-- fisx_elements.cpp:2363-2376, `getCacheSize`. -/
def getCacheSize (L : Library K) (name : String) : Outcome Nat := do
  let e ← L.getElement name
  return e.data.getCacheSize

/-- fisx_elements.cpp:2349-2361, `isCacheEnabled`. -/
def isCacheEnabled (L : Library K) (name : String) : Outcome Int := do
  let e ← L.getElement name
  return e.data.isCacheEnabled

variable [Trig K]

theorem getElement_onElement (pf : String → Outcome (SMap String K)) (fuel : Nat) (on : Bool) (key : EscapeKey K)
    (ops : List (Op K)) (n n' : String) (op : Element.Op K) :
    ((run pf fuel (empty on key) ops).onElement n op).2.getElement n' =
      (if n' = n then ((run pf fuel (empty on key) ops).getElement n).bind
          (fun e => .ok { e with data := (e.data.step op).2 })
        else (run pf fuel (empty on key) ops).getElement n') := by
  have hrun : ((run pf fuel (empty on key) ops).onElement n op).2 = run pf fuel (empty on key) (ops ++ [.onElement n op]) := by
    rw [run_snoc]; rfl
  rw [hrun]
  have h1 := C24_library_is_a_map pf fuel on key ops
  have h2 := C24_library_is_a_map pf fuel on key (ops ++ [.onElement n op])
  by_cases hn' : n' = ""
  · subst hn'
    rw [h2.2.2.2.2]
    by_cases hn : "" = n
    · subst hn; rw [if_pos rfl, h1.2.2.2.2]; rfl
    · rw [if_neg hn, h1.2.2.2.2]
  · rw [h2.2.2.2.1 n' hn', h1.2.2.2.1 n' hn', spec_append]
    simp only [specStep]
    by_cases hn : n' = n
    · subst hn
      rw [if_pos rfl, if_neg hn', h1.2.2.2.1 n' hn', Function.update_self]
      cases spec ops n' <;> rfl
    · rw [if_neg hn]
      split
      · rfl
      · rw [Function.update_of_ne hn]

theorem onElement_ok {L : Library K} {n : String} {op : Element.Op K} (h : (L.onElement n op).1 = .ok ()) :
    ∃ e, L.getElement n = .ok e ∧ (e.data.step op).1 = .ok () := by
  unfold onElement at h
  unfold getElement
  split at h
  · rename_i hd
    rw [if_pos hd]
    cases hf : L.dict.find? n with
    | none => rw [hf] at h; cases h
    | some i =>
      rw [hf] at h
      dsimp only at h ⊢
      cases he : L.elements[i]? with
      | none => rw [he] at h; cases h
      | some e =>
        rw [he] at h
        refine ⟨e, ?_, h⟩
        unfold vget
        rw [he]
  · cases h

/-- **C153** Asked of the library: the answer is that of the element, names that are not elements are refused, a successful
filling of the cache of an element stores the different energies given, and the other elements are not concerned. -/
theorem C153_library (pf : String → Outcome (SMap String K)) (fuel : Nat) (on : Bool) (key : EscapeKey K)
    (ops : List (Op K)) (n : String) :
    (n = "" ∨ n ∉ addedNames ops → (run pf fuel (empty on key) ops).getCacheSize n = .throw .invalidArgument ∧
      (run pf fuel (empty on key) ops).isCacheEnabled n = .throw .invalidArgument) ∧
    (∀ l, ((run pf fuel (empty on key) ops).onElement n (.fillCache l)).1 = .ok () →
      ((run pf fuel (empty on key) ops).onElement n (.fillCache l)).2.getCacheSize n = .ok (l.take 10000).dedup.length ∧
      ((run pf fuel (empty on key) ops).onElement n (.fillCache l)).2.isCacheEnabled n =
        (run pf fuel (empty on key) ops).isCacheEnabled n) ∧
    (∀ flag, n ≠ "" → n ∈ addedNames ops →
      ((run pf fuel (empty on key) ops).onElement n (.setCacheEnabled flag)).2.isCacheEnabled n =
        .ok (if flag then 1 else 0)) ∧
    (∀ op n', n' ≠ n →
      ((run pf fuel (empty on key) ops).onElement n op).2.getCacheSize n' = (run pf fuel (empty on key) ops).getCacheSize n' ∧
      ((run pf fuel (empty on key) ops).onElement n op).2.isCacheEnabled n' =
        (run pf fuel (empty on key) ops).isCacheEnabled n') := by
  refine ⟨fun h => ?_, fun l h => ?_, fun flag hn hmem => ?_, fun op n' hn => ?_⟩
  · have hd : ¬ (run pf fuel (empty on key) ops).isElementNameDefined n = true := by
      rw [(C24_library_is_a_map pf fuel on key ops).2.2.1]
      rintro ⟨h1, h2⟩
      rcases h with h | h
      · exact h1 h
      · exact h h2
    unfold getCacheSize isCacheEnabled getElement
    rw [if_neg hd]
    exact ⟨rfl, rfl⟩
  · obtain ⟨e, he, hs⟩ := onElement_ok h
    have hg := getElement_onElement pf fuel on key ops n n (.fillCache l)
    rw [if_pos rfl, he] at hg
    unfold getCacheSize isCacheEnabled
    rw [hg, he]
    refine ⟨?_, rfl⟩
    exact congrArg Outcome.ok ((Element.C153_fill e.data l).2.2 hs).1
  · have hg := getElement_onElement pf fuel on key ops n n (.setCacheEnabled flag)
    rw [if_pos rfl] at hg
    have hm := C24_library_is_a_map pf fuel on key ops
    have hd := (hm.2.2.1 n).2 ⟨hn, hmem⟩
    have hne : (run pf fuel (empty on key) ops).getElement n ≠ .throw .invalidArgument := by
      unfold getElement
      rw [if_pos hd]
      cases (run pf fuel (empty on key) ops).dict.find? n with
      | none => intro h; cases h
      | some i =>
        dsimp only
        unfold vget
        cases (run pf fuel (empty on key) ops).elements[i]? <;> (intro h; cases h)
    have ho := hm.2.2.2.1 n hn
    unfold isCacheEnabled
    rw [hg]
    cases hspec : spec ops n with
    | none => rw [hspec] at ho; exact absurd ho hne
    | some e =>
      rw [hspec] at ho
      rw [ho]
      cases flag <;> rfl
  · have hg := getElement_onElement pf fuel on key ops n n' op
    rw [if_neg hn] at hg
    unfold getCacheSize isCacheEnabled
    rw [hg]
    exact ⟨rfl, rfl⟩

end Library
end Fisx
