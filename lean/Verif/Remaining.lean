import Verif.MaterialProps
import Verif.LibraryComp
import Verif.IniProps
import Verif.MathFnProps

/-!
# What remains of violated properties (C55, C89, C90, C92, C96)

For the properties that the code breaks, the exact extent of the failure: which inputs are affected and what is returned
for them.
-/

set_option linter.unusedSectionVars false

namespace Fisx

/-! ## C55: repeated names -/

namespace Material

variable {K : Type} [Field K] [LinearOrder K] [IsStrictOrderedRing K]

theorem foldl_insert_last {l : List (String × K)} {m : SMap String K} {n : String} :
    (∀ pre v post, l = pre ++ (n, v) :: post → (∀ e ∈ post, e.1 ≠ n) →
      (l.foldl (fun m e => SMap.insert m e.1 e.2) m).find? n = some v) ∧
    ((∀ e ∈ l, e.1 ≠ n) → (l.foldl (fun m e => SMap.insert m e.1 e.2) m).find? n = m.find? n) := by
  have h2 : ∀ (l : List (String × K)) (m : SMap String K), (∀ e ∈ l, e.1 ≠ n) →
      (l.foldl (fun m e => SMap.insert m e.1 e.2) m).find? n = m.find? n := by
    intro l
    induction l with
    | nil => intro m _; rfl
    | cons e r ih =>
      intro m h
      rw [List.foldl_cons, ih _ (fun x hx => h x (List.mem_cons_of_mem _ hx)), SMap.find?_insert,
        if_neg (h e (by simp))]
  refine ⟨?_, h2 l m⟩
  rintro pre v post rfl hp
  rw [List.foldl_append, List.foldl_cons, h2 _ _ hp, SMap.find?_insert, if_pos rfl]

/-- **C55**, what holds for all accepted lists: the fraction of a name is the LAST of its amounts divided by the sum of all
the amounts; the fractions are positive and their sum is at most one. Missing: the sum is one only when no name is
repeated, `C01_list_normalised_iff_distinct`. -/
theorem C55_last_amount_partial (m : Material K) (names : List String) (amounts : List K)
    (hok : (m.setComposition names amounts).1 = .ok ()) :
    (∀ i (hi : i < names.length) (hi' : i < amounts.length), (∀ j, i < j → names[j]? ≠ some names[i]) →
      (m.setComposition names amounts).2.composition.find? names[i] = some (amounts[i] / amounts.sum)) ∧
    (∀ n, n ∉ names → (m.setComposition names amounts).2.composition.find? n = none) ∧
    (∀ e ∈ (m.setComposition names amounts).2.composition, 0 < e.2) ∧
    ((m.setComposition names amounts).2.composition.map Prod.snd).sum ≤ 1 := by
  have hlen : names.length = amounts.length := by
    by_contra h
    simp [setComposition, h] at hok
  have hpos : ∀ a ∈ amounts, 0 < a := by
    intro a ha
    by_contra hneg
    have := checkAmounts_throw amounts 0 ⟨a, ha, not_lt.1 hneg⟩
    simp [setComposition, hlen, this] at hok
  rw [setComposition_ok m names amounts hlen hpos]
  simp only
  set l := (names.zip amounts).map (fun e => (e.1, e.2 / amounts.sum)) with hl
  have hl1 : l.map Prod.fst = names := by
    rw [hl, List.map_map]
    exact List.map_fst_zip (le_of_eq hlen)
  have hget : ∀ i (hi : i < names.length) (hi' : i < amounts.length),
      l[i]? = some (names[i], amounts[i] / amounts.sum) := by
    intro i hi hi'
    rw [hl, List.getElem?_map, List.getElem?_eq_getElem (by simp [hi, hi'])]
    simp
  have hlpos : ∀ e ∈ l, 0 < e.2 := by
    intro e he
    obtain ⟨x, hx, rfl⟩ := List.mem_map.1 he
    have hxa := (List.of_mem_zip hx).2
    exact div_pos (hpos _ hxa) (List.sum_pos _ hpos (List.ne_nil_of_mem hxa))
  refine ⟨?_, ?_, fun e he => hlpos e (SMap.ofList_mem he), ?_⟩
  · intro i hi hi' hlast
    refine (foldl_insert_last (l := l) (m := [])).1 (l.take i) _ (l.drop (i + 1)) ?_ ?_
    · have hli : i < l.length := by simp [hl, hi, hi']
      have h1 : l[i] = (names[i], amounts[i] / amounts.sum) := by
        have := hget i hi hi'
        rw [List.getElem?_eq_getElem hli] at this
        exact Option.some.inj this
      rw [← h1, ← List.drop_eq_getElem_cons hli, List.take_append_drop]
    · intro e he h0
      obtain ⟨k, hk⟩ := List.mem_iff_getElem?.1 he
      rw [List.getElem?_drop] at hk
      apply hlast (i + 1 + k) (by omega)
      rw [← h0, ← hl1, List.getElem?_map, hk]
      rfl
  · intro n hn
    have := (foldl_insert_last (l := l) (m := []) (n := n)).2 (by
      intro e he h0
      exact hn (by rw [← hl1, ← h0]; exact List.mem_map_of_mem he))
    exact this
  · have h1 := (foldl_insert_total_lt l [] SMap.sorted_nil hlpos (by simp)).1
    have h2 : l.map Prod.snd = amounts.map (fun a => a / amounts.sum) := by
      rw [hl, List.map_map]
      have h3 := List.map_snd_zip (le_of_eq hlen.symm) (l₁ := names)
      calc _ = ((names.zip amounts).map Prod.snd).map (fun a => a / amounts.sum) := by
            rw [List.map_map]; rfl
        _ = _ := by rw [h3]
    have h3 : (l.map Prod.snd).sum ≤ 1 := by
      rw [h2, sum_div]
      exact div_self_le_one _
    have h4 : SMap.total ([] : SMap String K) = 0 := rfl
    rw [h4, add_zero] at h1
    exact le_trans h1 h3

/-- Iron is given twice: its first amount is lost. -/
example : ((new : Material ℚ).setComposition ["Fe", "O", "Fe"] [1, 1, 2]).1 = .ok () ∧
    ((new : Material ℚ).setComposition ["Fe", "O", "Fe"] [1, 1, 2]).2.composition = [("Fe", 1 / 2), ("O", 1 / 4)] := by
  decide +kernel

end Material

namespace Library

open Outcome

variable {K : Type} [Field K] [LinearOrder K] [IsStrictOrderedRing K]

/-! ## C89: numbers of atoms that are not positive -/

theorem sum_map_div (f : SMap String K) (M : String → K) (t : K) :
    (f.map (fun e : String × K => e.2 * M e.1 / t)).sum = (f.map (fun e => e.2 * M e.1)).sum / t := by
  rw [← Material.sum_div, List.map_map]
  rfl

theorem sum_nonpos (l : List K) (h : ∀ x ∈ l, x ≤ 0) : l.sum ≤ 0 := by
  induction l with
  | nil => simp
  | cons x t ih =>
    rw [List.sum_cons]
    exact add_nonpos (h x (by simp)) (ih (fun y hy => h y (List.mem_cons_of_mem _ hy)))

variable [Trans K] [Trig K]

/-- **C89**, the exact extent: for a formula of known elements with positive masses, as long as the total mass is not zero,
the fractions sum to one, and no fraction is negative exactly when all the numbers of atoms have the same sign. Missing:
a formula with numbers of different signs, or of total mass zero, is not rejected (`C89_negative_violated`). -/
theorem C89_signs_partial (pf : String → Outcome (SMap String K)) (hpf : ParserOK pf) (fuel : Nat) (on : Bool)
    (key : EscapeKey K) (ops : List (Op K)) (name : String) (f : SMap String K) (hf : pf name = .ok f)
    (M : String → K) (hM : ∀ e ∈ f, (run pf fuel (empty on key) ops).massOf e.1 = some (M e.1))
    (hMpos : ∀ e ∈ f, 0 < M e.1) (hne : (f.map (fun e => e.2 * M e.1)).sum ≠ 0) :
    ∃ r, (run pf fuel (empty on key) ops).formula pf name = .ok r ∧ (r.map Prod.snd).sum = 1 ∧
      ((∀ e ∈ r, 0 ≤ e.2) ↔ (∀ e ∈ f, 0 ≤ e.2) ∨ (∀ e ∈ f, e.2 ≤ 0)) := by
  refine ⟨_, formula_eq pf hpf _ (inv_run pf fuel on key ops) name f hf M hM, ?_, ?_⟩
  · rw [List.map_map]
    have h1 : (Prod.snd ∘ fun e : String × K => (e.1, e.2 * M e.1 / formulaMass M f))
        = fun e => e.2 * M e.1 / formulaMass M f := rfl
    rw [h1, sum_map_div]
    exact div_self hne
  · have hne' : formulaMass M f ≠ 0 := hne
    have hall : (∀ e ∈ f.map (fun e => (e.1, e.2 * M e.1 / formulaMass M f)), 0 ≤ e.2) ↔
        ∀ e ∈ f, 0 ≤ e.2 * M e.1 / formulaMass M f := by
      constructor
      · intro h e he
        exact h _ (List.mem_map_of_mem (f := fun e : String × K => (e.1, e.2 * M e.1 / formulaMass M f)) he)
      · intro h e he
        obtain ⟨x, hx, rfl⟩ := List.mem_map.1 he
        exact h x hx
    rw [hall]
    constructor
    · intro h
      rcases lt_or_gt_of_ne hne' with ht | ht
      · right
        intro e he
        by_contra h0
        have := div_neg_of_pos_of_neg (mul_pos (not_le.1 h0) (hMpos e he)) ht
        exact absurd (h e he) (not_le.2 this)
      · left
        intro e he
        by_contra h0
        have := div_neg_of_neg_of_pos (mul_neg_of_neg_of_pos (not_le.1 h0) (hMpos e he)) ht
        exact absurd (h e he) (not_le.2 this)
    · rintro (h | h) e he
      · refine div_nonneg (mul_nonneg (h e he) (hMpos e he).le) ?_
        unfold formulaMass
        apply List.sum_nonneg
        intro x hx
        obtain ⟨e', he', rfl⟩ := List.mem_map.1 hx
        exact mul_nonneg (h e' he') (hMpos e' he').le
      · refine div_nonneg_of_nonpos (mul_nonpos_of_nonpos_of_nonneg (h e he) (hMpos e he).le) ?_
        unfold formulaMass
        exact sum_nonpos _ (fun x hx => by
          obtain ⟨e', he', rfl⟩ := List.mem_map.1 hx
          exact mul_nonpos_of_nonpos_of_nonneg (h e' he') (hMpos e' he').le)

/-! ## C90: unknown names -/

/-- **C90**, the exact extent: for a name that is no formula of known elements, no material of the library and none of the
supplied materials, the result is empty when no material is supplied, and invalid_argument is thrown when there is one.
Missing: the empty result in the second case. -/
theorem C90_unknown_partial (pf : String → Outcome (SMap String K)) (hpf : ParserOK pf) (fuel : Nat) (on : Bool)
    (key : EscapeKey K) (ops : List (Op K)) (extra : List (Material K)) (name : String)
    (hn : NotFormula pf (run pf fuel (empty on key) ops) name)
    (hm : (run pf fuel (empty on key) ops).getMaterial name = .throw .invalidArgument)
    (hx : ∀ m ∈ extra, m.name ≠ name) (d : Nat) :
    (run pf fuel (empty on key) ops).comp pf (d + 1) name = .ok [] ∧
    (run pf fuel (empty on key) ops).compWith pf extra (d + 2) name =
      if extra = [] then .ok [] else .throw .invalidArgument := by
  have hinv := inv_run pf fuel on key ops
  generalize run pf fuel (empty on key) ops = L at *
  have hl : L.lookup name = none := by
    unfold lookup
    unfold getMaterial materialIndex at hm
    rw [List.find?_eq_none]
    intro m hm' h0
    have hlt : L.materials.findIdx (fun m => m.name == name) < L.materials.length :=
      List.findIdx_lt_length_of_exists ⟨m, hm', h0⟩
    rw [if_neg (not_le.2 hlt), vget_lt _ _ hlt] at hm
    cases hm
  have hc : ∀ d, comp pf L (d + 1) name = .ok [] := by
    intro d
    rw [comp, formula_of_not pf hpf L hinv name hn, ok_bind, if_neg (by simp), hl]
    rfl
  refine ⟨hc d, ?_⟩
  rw [compWith, formula_of_not pf hpf L hinv name hn, ok_bind, if_neg (by simp)]
  by_cases he : extra = []
  · rw [if_pos he, if_pos (by rw [he]; rfl)]
    exact hc d
  · rw [if_neg he, if_neg (by simpa using he)]
    have : extra.find? (fun m => m.name == name) = none := by
      rw [List.find?_eq_none]
      intro m hm' h0
      exact hx m hm' (by simpa using h0)
    unfold ownComposition
    rw [this]
    dsimp only
    rw [hc d, ok_bind]
    rfl

section

attribute [local instance] Element.exampleTrans

local instance exampleTrig3 : Trig ℚ := ⟨fun _ => 1⟩

/-- The hypotheses are met: `H-2O` has numbers of both signs and a negative fraction, `xyz` is not known. -/
example : nested.formula examplePf "H-2O" = .ok [("H", -1 / 7), ("O", 8 / 7)] ∧
    nested.formula examplePf "H2O" = .ok [("H", 1 / 9), ("O", 8 / 9)] ∧
    (examplePf "xyz" = .ok [] ∨ ∃ f, examplePf "xyz" = .ok f ∧ ∃ e ∈ f, nested.massOf e.1 = none) ∧
    nested.getMaterial "xyz" = .throw .invalidArgument := by
  refine ⟨by decide +kernel, by decide +kernel, Or.inl (by decide +kernel), ?_⟩
  unfold getMaterial
  rw [if_pos (by decide +kernel)]

end

end Library

/-! ## C92: comments -/

namespace Ini

/-- The plain lines and the same lines with comments: comment lines anywhere, comments after the text of a line (the text
has a sign of its own, is no section line, its quotes are closed, and the blanks before the comment sign are `junk`), and
text after the name of a section. -/
inductive Commented (junk : Char → Bool) : List Str → List Str → Prop
  | nil : Commented junk [] []
  | same (l : Str) {a b} (h : Commented junk a b) : Commented junk (l :: a) (l :: b)
  | line (indent comment : Str) (sign : Char) (hi : blank indent) (hs : commentSign sign = true) {a b}
      (h : Commented junk a b) : Commented junk a ((indent ++ sign :: comment) :: b)
  | trailing (indent gap comment : Str) (x : Char) (t : Str) (sign : Char) (hi : blank indent) (hx : isSpace x = false)
      (hb : x ≠ '[') (ht : noTrail (x :: t)) (hq : unmatched false (x :: t) = false) (hg : blank gap)
      (hj : ∀ c ∈ gap, junk c = true) (hs : commentSign sign = true) {a b} (h : Commented junk a b) :
      Commented junk ((indent ++ x :: t) :: a) ((indent ++ x :: t ++ gap ++ sign :: comment) :: b)
  | header (indent name note : Str) (hi : blank indent) (hn : name ≠ [] ∧ '[' ∉ name ∧ ']' ∉ name)
      (hc : '[' ∉ note ∧ ']' ∉ note) {a b} (h : Commented junk a b) :
      Commented junk ((indent ++ '[' :: (name ++ [']'])) :: a) ((indent ++ '[' :: (name ++ ']' :: note)) :: b)

/-- The text without the characters of no importance. -/
def clean (junk : Char → Bool) (s : Str) : Str := s.filter (fun c => !junk c)

/-- The value of a key, empty when there is none. -/
def valueOf (r : Reader) (name key : Str) : Str := ((readSection r name true).1.find? key).getD []

/-- Two states that differ by characters of no importance. -/
structure Sim (junk : Char → Bool) (s t : State) : Prop where
  main : s.main = t.main
  key : s.key = t.key
  sections : s.reader.sections = t.reader.sections
  values : ∀ n k, clean junk (valueOf s.reader n k) = clean junk (valueOf t.reader n k)

theorem clean_append (junk : Char → Bool) (a b : Str) : clean junk (a ++ b) = clean junk a ++ clean junk b :=
  List.filter_append ..

theorem clean_junk {junk : Char → Bool} {a : Str} (h : ∀ c ∈ a, junk c = true) : clean junk a = [] := by
  unfold clean
  rw [List.filter_eq_nil_iff]
  intro c hc
  simp [h c hc]

theorem valueOf_set (r : Reader) (main key content n k : Str) :
    valueOf (setEntry r main key content) n k = if n = main ∧ k = key then content else valueOf r n k := by
  unfold valueOf
  rw [readSection_lookup, readSection_lookup, lookup_set]
  split <;> rfl

theorem sim_refl (junk : Char → Bool) (s : State) : Sim junk s s := ⟨rfl, rfl, rfl, fun _ _ => rfl⟩

/-- The state after a section line. -/
def enter (s : State) (n : Str) : State :=
  { s with main := n, reader := { s.reader with sections := s.reader.sections ++ [n] } }

theorem sim_header {junk : Char → Bool} {s t : State} (h : Sim junk s t) (n : Str) :
    Sim junk (enter s n) (enter t n) := by
  refine ⟨rfl, h.key, by unfold enter; dsimp only; rw [h.sections], fun m k => ?_⟩
  have := h.values m k
  unfold valueOf at this ⊢
  rw [readSection_lookup, readSection_lookup] at this ⊢
  exact this

/-- Two line ends that agree up to characters of no importance. -/
def SameScan (junk : Char → Bool) (a b : Scan) : Prop :=
  a.quotes % 2 = b.quotes % 2 ∧ a.eq = b.eq ∧ ∃ j, (∀ c ∈ j, junk c = true) ∧ b.out = a.out ++ j

/-- What `body` does with the result of the scan. -/
def finish (st : State) (s : Scan) : Outcome Unit × State :=
  if s.quotes % 2 = 1 then (.throw .invalidArgument, st)
  else if s.out.length < 1 then (.ok (), { st with key := [] })
  else if s.eq > 0 then
    let key := s.out.take s.eq
    (.ok (), { st with key := key, reader := setEntry st.reader st.main key (s.out.drop (s.eq + 1)) })
  else if st.key.length > 0 ∧ st.main.length > 0 then
    let content := ((entry st.reader.contents st.main).find? st.key).getD [] ++ s.out
    (.ok (), { st with reader := setEntry st.reader st.main st.key content })
  else (.ok (), st)

theorem body_finish (st : State) (t : Str) : body st t = finish st (scan t { out := [], quotes := 0, eq := 0 }) := rfl

theorem finish_sim {junk : Char → Bool} {s t : State} (h : Sim junk s t) {a b : Scan} (hab : SameScan junk a b)
    (hout : a.out ≠ []) (heq : a.eq = 0 ∨ a.eq + 1 ≤ a.out.length) :
    (finish s a).1 = (finish t b).1 ∧ Sim junk (finish s a).2 (finish t b).2 := by
  obtain ⟨hq, he, j, hj, hbo⟩ := hab
  unfold finish
  rw [← hq, ← he]
  have hbne : b.out ≠ [] := by rw [hbo]; simp [hout]
  have l1 : ¬ a.out.length < 1 := by
    have := List.length_pos_of_ne_nil hout
    omega
  have l2 : ¬ b.out.length < 1 := by
    have := List.length_pos_of_ne_nil hbne
    omega
  rw [if_neg l1, if_neg l2]
  split
  · exact ⟨rfl, h⟩
  · split
    · rename_i hpos
      have hle : a.eq + 1 ≤ a.out.length := by omega
      have htake : b.out.take a.eq = a.out.take a.eq := by
        rw [hbo, List.take_append_of_le_length (by omega)]
      have hdrop : b.out.drop (a.eq + 1) = a.out.drop (a.eq + 1) ++ j := by
        rw [hbo, List.drop_append_of_le_length hle]
      rw [htake, hdrop]
      refine ⟨rfl, h.main, rfl, h.sections, fun n k => ?_⟩
      dsimp only
      rw [valueOf_set, valueOf_set, ← h.main]
      split
      · rw [clean_append, clean_junk hj, List.append_nil]
      · exact h.values n k
    · rw [← h.key, ← h.main]
      split
      · refine ⟨rfl, rfl, rfl, h.sections, fun n k => ?_⟩
        dsimp only
        rw [valueOf_set, valueOf_set]
        split
        · have e1 : ∀ r : Reader, ((entry r.contents s.main).find? s.key).getD [] = valueOf r s.main s.key := by
            intro r
            rw [entry_find, valueOf, readSection_lookup]
          rw [e1, e1, clean_append, clean_append, hbo, clean_append, clean_junk hj, List.append_nil, h.values]
        · exact h.values n k
      · exact ⟨rfl, h⟩

theorem scan_eq_bound : ∀ (l : Str) (s : Scan), s.eq = 0 ∨ s.eq + 1 ≤ s.out.length →
    (scan l s).eq = 0 ∨ (scan l s).eq + 1 ≤ (scan l s).out.length := by
  intro l
  induction l with
  | nil => intro s h; exact h
  | cons c t ih =>
    intro s h
    rw [scan]
    split
    · apply ih
      rcases h with h | h
      · exact Or.inl h
      · right; simp only [List.length_append, List.length_singleton]; omega
    · split
      · apply ih
        rcases h with h | h
        · exact Or.inl h
        · right; simp only [List.length_append, List.length_singleton]; omega
      · split
        · rcases h with h | h
          · exact Or.inl h
          · right; simp only [List.length_append, List.length_singleton]; omega
        · apply ih
          dsimp only
          by_cases h0 : s.eq = 0
          · by_cases hc : c = '='
            · subst hc
              have : isSpace '=' = false := by decide
              right
              simp [h0, this]
            · left; simp [hc, h0]
          · right
            have h : s.eq + 1 ≤ s.out.length := by omega
            simp only [h0, and_false, if_false, List.length_append, List.length_singleton]
            omega

theorem scan_length : ∀ (l : Str) (s : Scan), s.out.length ≤ (scan l s).out.length := by
  intro l
  induction l with
  | nil => intro s; exact le_refl _
  | cons c t ih =>
    intro s
    rw [scan]
    split
    · refine le_trans ?_ (ih _); simp
    · split
      · refine le_trans ?_ (ih _); simp
      · split
        · simp
        · refine le_trans ?_ (ih _)
          dsimp only
          split
          · split <;> simp
          · simp

theorem scan_nonempty {x : Char} (t : Str) (hx : isSpace x = false) :
    (scan (x :: t) { out := [], quotes := 0, eq := 0 }).out ≠ [] := by
  rw [← List.length_pos_iff]
  rw [scan]
  split
  · exact lt_of_lt_of_le (by simp) (scan_length _ _)
  · rw [if_neg (by simp)]
    split
    · simp
    · refine lt_of_lt_of_le ?_ (scan_length _ _)
      simp [hx]

/-- The scan of blanks and a comment adds characters of no importance. -/
theorem scan_comment {junk : Char → Bool} (hz : junk '\x00' = true) {gap : Str} (hg : blank gap)
    (hj : ∀ c ∈ gap, junk c = true) {sign : Char} (hs : commentSign sign = true) (c : Str) :
    ∀ s : Scan, s.quotes % 2 = 0 → SameScan junk s (scan (gap ++ sign :: c) s) := by
  induction gap with
  | nil =>
    intro s hq
    have h1 : sign = '#' ∨ sign = ';' := by simpa [commentSign] using hs
    have h2 : sign ≠ '"' := by rcases h1 with rfl | rfl <;> decide
    rw [List.nil_append, scan, if_neg h2, if_neg (by omega), if_pos h1]
    exact ⟨rfl, rfl, ['\x00'], by simpa using hz, rfl⟩
  | cons g gs ih =>
    intro s hq
    have ih := ih (fun x hx => hg x (List.mem_cons_of_mem _ hx)) (fun x hx => hj x (List.mem_cons_of_mem _ hx))
    have hgb := hg g (by simp)
    have hjg := hj g (by simp)
    have h1 : g ≠ '"' ∧ ¬ (g = '#' ∨ g = ';') ∧ isSpace g = true ∧ g ≠ '=' := by
      rcases hgb with rfl | rfl | rfl <;> decide
    rw [List.cons_append, scan, if_neg h1.1, if_neg (by omega), if_neg h1.2.1]
    dsimp only
    simp only [h1.2.2.1, if_true, h1.2.2.2, false_and, if_false]
    by_cases h0 : s.eq = 0
    · simp only [h0, if_true]
      have := ih s hq
      rw [← h0]
      exact this
    · simp only [h0, if_false]
      obtain ⟨a1, a2, j, a3, a4⟩ := ih { s with out := s.out ++ [g] } hq
      refine ⟨a1, a2, g :: j, ?_, ?_⟩
      · intro c hc
        rcases List.mem_cons.1 hc with rfl | hc
        · exact hjg
        · exact a3 c hc
      · rw [a4]
        simp

/-- A comment after a text with closed quotes. -/
theorem scan_trailing {junk : Char → Bool} (hz : junk '\x00' = true) {gap : Str} (hg : blank gap)
    (hj : ∀ c ∈ gap, junk c = true) {sign : Char} (hs : commentSign sign = true) (c : Str) :
    ∀ (l : Str) (s : Scan), (scan l s).quotes % 2 = 0 → SameScan junk (scan l s) (scan (l ++ (gap ++ sign :: c)) s) := by
  intro l
  induction l with
  | nil => intro s hq; exact scan_comment hz hg hj hs c s hq
  | cons x t ih =>
    intro s hq
    rw [List.cons_append]
    rw [scan] at hq ⊢
    rw [scan]
    by_cases h1 : x = '"'
    · simp only [h1, if_true] at hq ⊢
      exact ih _ hq
    · simp only [h1, if_false] at hq ⊢
      by_cases h2 : s.quotes % 2 = 1
      · simp only [h2, if_true] at hq ⊢
        exact ih _ hq
      · simp only [h2, if_false] at hq ⊢
        by_cases h3 : x = '#' ∨ x = ';'
        · simp only [h3, if_true]
          exact ⟨rfl, rfl, [], by simp, by simp⟩
        · simp only [h3, if_false] at hq ⊢
          exact ih _ hq

theorem dropWhile_keep {p : Char → Bool} {y : Char} (hy : p y = false) (a b : Str) :
    ∃ a', (a ++ y :: b).dropWhile p = a' ++ y :: b := by
  induction a with
  | nil => exact ⟨[], by simp [hy]⟩
  | cons x t ih =>
    rw [List.cons_append, List.dropWhile_cons]
    split
    · exact ih
    · exact ⟨x :: t, rfl⟩

/-- The blanks around a line with a comment. -/
theorem trim_comment {indent : Str} (hi : blank indent) {x : Char} (hx : isTrim x = false) {y : Char} (hy : isTrim y = false)
    (t c : Str) : ∃ c', trim (indent ++ x :: (t ++ y :: c)) = x :: (t ++ y :: c') := by
  unfold trim
  have e : (indent ++ x :: (t ++ y :: c)).reverse = c.reverse ++ y :: (indent ++ x :: t).reverse := by simp
  rw [e]
  obtain ⟨a', h⟩ := dropWhile_keep hy c.reverse (indent ++ x :: t).reverse
  rw [h]
  refine ⟨a'.reverse, ?_⟩
  have e2 : (a' ++ y :: (indent ++ x :: t).reverse).reverse = indent ++ x :: (t ++ y :: a'.reverse) := by simp
  rw [e2]
  rw [dropWhile_all (fun z hz => blank_trim hi z hz), List.dropWhile_cons, hx]
  rfl

theorem trim_comment_line {indent : Str} (hi : blank indent) {x : Char} (hx : isTrim x = false) (c : Str) :
    ∃ c', trim (indent ++ x :: c) = x :: c' := by
  unfold trim
  have e : (indent ++ x :: c).reverse = c.reverse ++ x :: indent.reverse := by simp
  rw [e]
  obtain ⟨a', h⟩ := dropWhile_keep hx c.reverse indent.reverse
  rw [h]
  refine ⟨a'.reverse, ?_⟩
  have e2 : (a' ++ x :: indent.reverse).reverse = indent ++ x :: a'.reverse := by simp
  rw [e2, dropWhile_all (fun z hz => blank_trim hi z hz), List.dropWhile_cons, hx]
  rfl

theorem readLine_same {junk : Char → Bool} {s t : State} (h : Sim junk s t) (l : Str) :
    (readLine s l).1 = (readLine t l).1 ∧ Sim junk (readLine s l).2 (readLine t l).2 := by
  unfold readLine
  cases trim l with
  | nil => exact ⟨rfl, h⟩
  | cons c u =>
    dsimp only
    split
    · unfold header
      split
      · exact ⟨rfl, h⟩
      · split
        · exact ⟨rfl, h⟩
        · exact ⟨rfl, sim_header h _⟩
    · rw [body_finish, body_finish]
      by_cases h0 : (scan (c :: u) { out := [], quotes := 0, eq := 0 }).out = []
      · unfold finish
        rw [h0]
        split
        · exact ⟨rfl, h⟩
        · exact ⟨rfl, h.main, rfl, h.sections, h.values⟩
      · exact finish_sim h ⟨rfl, rfl, [], by simp, by simp⟩ h0 (scan_eq_bound _ _ (Or.inl rfl))

theorem readLines_commented {junk : Char → Bool} (hz : junk '\x00' = true) {a b : List Str} (hab : Commented junk a b) :
    ∀ s t : State, Sim junk s t → (readLines s a).1 = (readLines t b).1 ∧ Sim junk (readLines s a).2 (readLines t b).2 := by
  induction hab with
  | nil => intro s t h; exact ⟨rfl, h⟩
  | same l _ ih =>
    intro s t h
    obtain ⟨h1, h2⟩ := readLine_same h l
    rw [readLines, readLines]
    cases hs : readLine s l with
    | mk o s' =>
      cases ht : readLine t l with
      | mk o' t' =>
        rw [hs, ht] at h1 h2
        dsimp only at h1 h2
        subst h1
        cases o with
        | ok _ => exact ih s' t' h2
        | throw e => exact ⟨rfl, h2⟩
        | ub u => exact ⟨rfl, h2⟩
        | diverge => exact ⟨rfl, h2⟩
  | line indent comment sign hi hs _ ih =>
    intro s t h
    have h1 : sign = '#' ∨ sign = ';' := by simpa [commentSign] using hs
    have h2 : sign ≠ '"' ∧ sign ≠ '[' ∧ isTrim sign = false := by rcases h1 with rfl | rfl <;> decide
    obtain ⟨c', hc⟩ := trim_comment_line hi h2.2.2 comment
    have h3 : readLine t (indent ++ sign :: comment) = finish t { out := ['\x00'], quotes := 0, eq := 0 } := by
      rw [readLine, hc]
      dsimp only
      rw [if_neg h2.2.1, body_finish, scan, if_neg h2.1, if_neg (by simp), if_pos h1]
      rfl
    have h4 : (readLine t (indent ++ sign :: comment)).1 = .ok () ∧ Sim junk s (readLine t (indent ++ sign :: comment)).2 := by
      rw [h3]
      unfold finish
      rw [if_neg (by simp), if_neg (by simp), if_neg (by simp)]
      split
      · refine ⟨rfl, h.main, h.key, h.sections, fun n k => ?_⟩
        dsimp only
        rw [valueOf_set]
        split
        · rename_i hk
          have e1 : ((entry t.reader.contents t.main).find? t.key).getD [] = valueOf t.reader t.main t.key := by
            rw [entry_find, valueOf, readSection_lookup]
          rw [e1, clean_append, clean_junk (a := ['\x00']) (by simpa using hz), List.append_nil, hk.1, hk.2, h.values]
        · exact h.values n k
      · exact ⟨rfl, h⟩
    cases ht : readLine t (indent ++ sign :: comment) with
    | mk o t' =>
      rw [ht] at h4
      obtain ⟨rfl, h4⟩ := h4
      rw [readLines_ok ht]
      exact ih s t' h4
  | trailing indent gap comment x t sign hi hx hb ht hq hg hj hs _ ih =>
    intro s u h
    have h1 : sign = '#' ∨ sign = ';' := by simpa [commentSign] using hs
    have h2 : isTrim sign = false := by rcases h1 with rfl | rfl <;> decide
    have e1 : trim (indent ++ x :: t) = x :: t := by
      have := trim_text (a := indent) (b := []) hi (by intro c hc; cases hc) (isTrim_isSpace hx) ht
      simpa using this
    obtain ⟨c', e2⟩ := trim_comment hi (isTrim_isSpace hx) h2 (t ++ gap) comment
    have e3 : indent ++ x :: t ++ gap ++ sign :: comment = indent ++ x :: (t ++ gap ++ sign :: comment) := by simp
    have hsame := scan_trailing hz hg hj hs c' (x :: t) { out := [], quotes := 0, eq := 0 } (by
      have := scan_unmatched (x :: t) { out := [], quotes := 0, eq := 0 }
      simp only [Nat.zero_mod, zero_ne_one, decide_false, hq] at this
      have : ¬ (scan (x :: t) { out := [], quotes := 0, eq := 0 }).quotes % 2 = 1 := by simp [this]
      omega)
    obtain ⟨r1, r2⟩ := finish_sim h hsame (scan_nonempty t hx) (scan_eq_bound _ _ (Or.inl rfl))
    have l1 : readLine s (indent ++ x :: t) = finish s (scan (x :: t) { out := [], quotes := 0, eq := 0 }) := by
      rw [readLine, e1]
      dsimp only
      rw [if_neg hb, body_finish]
    have l2 : readLine u (indent ++ x :: t ++ gap ++ sign :: comment) =
        finish u (scan (x :: t ++ (gap ++ sign :: c')) { out := [], quotes := 0, eq := 0 }) := by
      rw [e3, readLine, e2]
      dsimp only
      rw [if_neg hb, body_finish]
      simp
    rw [readLines, readLines, l1, l2]
    cases hs1 : finish s (scan (x :: t) { out := [], quotes := 0, eq := 0 }) with
    | mk o s' =>
      cases ht1 : finish u (scan (x :: t ++ (gap ++ sign :: c')) { out := [], quotes := 0, eq := 0 }) with
      | mk o' t' =>
        rw [hs1, ht1] at r1 r2
        dsimp only at r1 r2
        subst r1
        cases o with
        | ok _ => exact ih s' t' r2
        | throw e => exact ⟨rfl, r2⟩
        | ub _ => exact ⟨rfl, r2⟩
        | diverge => exact ⟨rfl, r2⟩
  | header indent name note hi hn hc _ ih =>
    intro s t h
    have key : ∀ (st : State) (note : Str), '[' ∉ note → ']' ∉ note → readLine st (indent ++ '[' :: (name ++ ']' :: note)) =
        (.ok (), { st with main := name, reader := { st.reader with sections := st.reader.sections ++ [name] } }) := by
      intro st note n1 n2
      obtain ⟨c', e2⟩ := trim_comment (indent := indent) hi (x := '[') (by decide) (y := ']') (by decide) name note
      have n1' : '[' ∉ c' ∧ ']' ∉ c' := by
        have hsub : ∀ z ∈ trim (indent ++ '[' :: (name ++ ']' :: note)), z ∈ indent ++ '[' :: (name ++ ']' :: note) := by
          intro z hz
          unfold trim at hz
          have := List.dropWhile_subset _ hz
          rw [List.mem_reverse] at this
          have := List.dropWhile_subset _ this
          rwa [List.mem_reverse] at this
        have hcount : ∀ z, (trim (indent ++ '[' :: (name ++ ']' :: note))).count z ≤
            (indent ++ '[' :: (name ++ ']' :: note)).count z := by
          intro z
          unfold trim
          have s1 := (List.dropWhile_sublist isTrim (l := (((indent ++ '[' :: (name ++ ']' :: note)).reverse.dropWhile isTrim).reverse))).count_le z
          have s2 := (List.dropWhile_sublist isTrim (l := (indent ++ '[' :: (name ++ ']' :: note)).reverse)).count_le z
          rw [List.count_reverse] at s1 s2
          exact le_trans s1 s2
        have hib : '[' ∉ indent ∧ ']' ∉ indent := by
          constructor <;>
          · intro hz
            rcases hi _ hz with h | h | h <;> simp at h
        constructor
        · intro hz
          have := hcount '['
          rw [e2] at this
          simp [List.count_eq_zero_of_not_mem hn.2.1, List.count_eq_zero_of_not_mem n1, List.count_eq_zero_of_not_mem hib.1] at this
          exact List.count_eq_zero.1 this hz
        · intro hz
          have := hcount ']'
          rw [e2] at this
          simp [List.count_eq_zero_of_not_mem hn.2.2, List.count_eq_zero_of_not_mem n2, List.count_eq_zero_of_not_mem hib.2] at this
          exact List.count_eq_zero.1 this hz
      have hidx : (name ++ ']' :: c').findIdx (· == ']') = name.length := by
        rw [List.findIdx_append, if_neg]
        · simp [List.findIdx_cons]
        · rw [not_lt, List.findIdx_eq_length.2]
          intro z hz
          simp only [beq_eq_false_iff_ne, ne_eq]
          rintro rfl
          exact hn.2.2 hz
      rw [readLine, e2]
      dsimp only
      rw [if_pos rfl, Ini.header, if_neg (by simp [hn.2.1, n1'.1]), if_neg]
      · rw [hidx]
        simp
      · rw [hidx]
        have : 0 < name.length := List.length_pos_of_ne_nil hn.1
        rintro (h1 | h1)
        · apply h1
          simp [List.count_eq_zero_of_not_mem hn.2.2, List.count_eq_zero_of_not_mem n1'.2]
        · omega
    rw [readLines_ok (key s [] (by simp) (by simp)), readLines_ok (key t note hc.1 hc.2)]
    exact ih _ _ (sim_header h name)

/-- **C92**, what holds for all texts: comments change neither the acceptance nor the sections of a file, and the values are
the same up to the character zero (and up to blanks when there are some before the comment sign); a key without value may
appear. Here `junk` are the characters that are disregarded, zero among them. Missing: equality of the values, see
`C92_trailing_comment_violated` and `C92_comment_line_violated`. -/
theorem C92_up_to_zeros_partial (junk : Char → Bool) (hz : junk '\x00' = true) (r : Reader) (plain commented : Str)
    (h : Commented junk (lines plain) (lines commented)) :
    (read r (some commented)).1 = (read r (some plain)).1 ∧
    getSections (read r (some commented)).2 = getSections (read r (some plain)).2 ∧
    ∀ name key, clean junk (valueOf (read r (some commented)).2 name key) =
      clean junk (valueOf (read r (some plain)).2 name key) := by
  obtain ⟨h1, h2⟩ := readLines_commented hz h _ _ (sim_refl junk { reader := { r with sections := [] }, main := [], key := [] })
  exact ⟨h1.symm, h2.sections.symm, fun n k => (h2.values n k).symm⟩

/-- The hypothesis is met by a file with a comment of each kind. -/
example : Commented (fun c => c == '\x00' || isTrim c) (lines "[fit]\nenergy = 16\n".toList)
    (lines "# first\n[fit] ; the fit\nenergy = 16 # keV\n ; last\n".toList) := by
  have e1 : lines "[fit]\nenergy = 16\n".toList = ["[fit]".toList, "energy = 16".toList] := by decide +kernel
  have e2 : lines "# first\n[fit] ; the fit\nenergy = 16 # keV\n ; last\n".toList =
      ["# first".toList, "[fit] ; the fit".toList, "energy = 16 # keV".toList, " ; last".toList] := by decide +kernel
  rw [e1, e2]
  have hb : blank [] := by intro c hc; cases hc
  have hb1 : blank [' '] := by unfold blank; decide
  exact Commented.line [] " first".toList '#' hb rfl
    (Commented.header [] "fit".toList " ; the fit".toList hb (by decide) (by decide)
      (Commented.trailing [] [' '] " keV".toList 'e' "nergy = 16".toList '#' hb (by decide) (by decide)
        (by unfold noTrail; decide) (by decide) hb1 (by decide) rfl
        (Commented.line [' '] " last".toList ';' hb1 rfl Commented.nil)))

end Ini

/-! ## C96: exponential integrals at 1 -/

namespace MathFn

/-- **C96**, the exact extent: 1 is the only positive argument at which E1 and En do not return a value. -/
theorem C96_only_one_partial {x : ℝ} (hx : 0 < x) (n : Int) (hn : 1 ≤ n) :
    ((∃ v, E1 x = .ok v) ↔ x ≠ 1) ∧ ((∃ v, En n x = .ok v) ↔ x ≠ 1) := by
  refine ⟨⟨?_, fun h => ?_⟩, ⟨?_, fun h => ?_⟩⟩
  · rintro ⟨v, hv⟩ rfl
    rw [C96_E1_one_violated] at hv
    cases hv
  · obtain ⟨v, hv, _⟩ := C48_E1_defined hx h
    exact ⟨v, hv⟩
  · rintro ⟨v, hv⟩ rfl
    rw [C96_En_one_violated n hn] at hv
    cases hv
  · obtain ⟨v, _, hv, _⟩ := C48_En_recurrence hx h n hn
    exact ⟨v, hv⟩

end MathFn
end Fisx
