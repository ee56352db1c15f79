import Verif.TransmissionTable
import Mathlib.Data.List.Induction

/-!
# Properties of `TransmissionTable`: C03, C04, C05
-/

set_option linter.unusedSectionVars false

namespace Fisx.TransmissionTable

variable {K : Type} [Field K] [LinearOrder K] [IsStrictOrderedRing K]

/-! ## Helper lemmas -/

theorem upperBound_split (pre post : SMap K K) (e : K) (h1 : ∀ p ∈ pre, p.1 ≤ e)
    (h2 : ∀ p ∈ post.head?, e < p.1) : upperBound (pre ++ post) e = pre.length := by
  unfold upperBound
  induction pre with
  | nil =>
    cases post with
    | nil => rfl
    | cons p r =>
      have : ¬ p.1 ≤ e := not_le.2 (h2 p (by simp))
      simp [this]
  | cons p r ih =>
    have hp : p.1 ≤ e := h1 p (by simp)
    simp only [List.cons_append, List.takeWhile_cons, hp, decide_true, if_true, List.length_cons]
    rw [ih (fun q hq => h1 q (List.mem_cons_of_mem _ hq))]

theorem get_inside (t : TransmissionTable K) (pre post : SMap K K) (a b : K × K) (e : K)
    (ht : t.table = pre ++ a :: b :: post) (hs : SMap.Sorted t.table)
    (h1 : a.1 ≤ e) (h2 : e < b.1) :
    t.getTransmission e = a.2 + (b.2 - a.2) * ((e - a.1) / (b.1 - a.1)) := by
  have hub : upperBound t.table e = pre.length + 1 := by
    have := upperBound_split (pre ++ [a]) (b :: post) e (by
      intro p hp
      rcases List.mem_append.1 hp with hp | hp
      · rw [ht] at hs
        unfold SMap.Sorted at hs
        rw [List.pairwise_append] at hs
        exact le_trans (le_of_lt (hs.2.2 p hp a (by simp))) h1
      · simp at hp; subst hp; exact h1) (by simpa using h2)
    rw [ht]
    simpa using this
  have hsub : b.1 - a.1 ≠ 0 := by
    have : a.1 < b.1 := lt_of_le_of_lt h1 h2
    exact ne_of_gt (sub_pos.2 this)
  unfold getTransmission
  have hlen : t.table.length = pre.length + post.length + 2 := by rw [ht]; simp; omega
  have e1 : ¬ t.table.length < 1 := by omega
  have e2 : ¬ pre.length + 1 = t.table.length := by omega
  simp only [hub, e1, if_false, e2]
  split
  · rename_i hle
    have hpre : pre = [] := by
      cases pre with
      | nil => rfl
      | cons p r =>
        exfalso
        rw [ht] at hle hs
        simp at hle
        have := (SMap.sorted_cons.1 hs).1 a (by simp)
        exact absurd (lt_of_lt_of_le this h1) (not_lt.2 hle)
    subst hpre
    rw [ht] at hle ⊢
    simp at hle ⊢
    have : e = a.1 := le_antisymm hle h1
    simp [this]
  · have g1 : t.table.getD (pre.length + 1 - 1) (0, 0) = a := by rw [ht]; simp
    have g2 : t.table.getD (pre.length + 1) (0, 0) = b := by
      rw [ht, List.getD_eq_getElem?_getD, List.getElem?_append_right (by omega)]; simp
    rw [g1, g2]
    field_simp
    ring

theorem get_below (t : TransmissionTable K) (a : K × K) (post : SMap K K) (e : K)
    (ht : t.table = a :: post) (hs : SMap.Sorted t.table) (h : e ≤ a.1) :
    t.getTransmission e = a.2 := by
  unfold getTransmission
  have e1 : ¬ t.table.length < 1 := by rw [ht]; simp
  simp only [e1, if_false]
  split
  · rename_i hub
    -- then every key is at most e, so the table is the single point a
    have : post = [] := by
      cases post with
      | nil => rfl
      | cons b r =>
        exfalso
        rw [ht] at hs
        have hab := (SMap.sorted_cons.1 hs).1 b (by simp)
        have hb : ¬ b.1 ≤ e := not_le.2 (lt_of_le_of_lt h hab)
        rw [ht] at hub
        unfold upperBound at hub
        by_cases ha : a.1 ≤ e
        · simp [ha, hb] at hub
        · simp [ha] at hub
    subst this
    have : upperBound t.table e = 1 := by rw [hub, ht]; rfl
    rw [this, ht]; rfl
  · rw [ht]
    simp only [List.getD_cons_zero]
    rw [if_pos h]

theorem get_above (t : TransmissionTable K) (pre : SMap K K) (z : K × K) (e : K)
    (ht : t.table = pre ++ [z]) (hs : SMap.Sorted t.table) (h : z.1 ≤ e) :
    t.getTransmission e = z.2 := by
  have hub : upperBound t.table e = t.table.length := by
    have := upperBound_split (pre ++ [z]) [] e (by
      intro p hp
      rcases List.mem_append.1 hp with hp | hp
      · rw [ht] at hs
        unfold SMap.Sorted at hs
        rw [List.pairwise_append] at hs
        exact le_trans (le_of_lt (hs.2.2 p hp z (by simp))) h
      · simp at hp; subst hp; exact h) (by simp)
    rw [ht]
    simpa using this
  unfold getTransmission
  have e1 : ¬ t.table.length < 1 := by rw [ht]; simp
  simp only [e1, if_false, hub, if_true]
  rw [ht]
  simp

/-! ## C03: lookup is an interpolation of the table -/

/-- C03, tabulated energies: the tabulated value is returned exactly. -/
theorem C03_exact (t : TransmissionTable K) (hs : SMap.Sorted t.table) (x y : K)
    (h : (x, y) ∈ t.table) : t.getTransmission x = y := by
  obtain ⟨pre, post, hsplit⟩ := List.append_of_mem h
  cases post with
  | nil => exact get_above t pre (x, y) x hsplit hs (le_refl _)
  | cons b r =>
    have hlt : x < b.1 := by
      rw [hsplit] at hs
      unfold SMap.Sorted at hs
      rw [List.pairwise_append, List.pairwise_cons] at hs
      exact hs.2.1.1 b (by simp)
    rw [get_inside t pre r (x, y) b x hsplit hs (le_refl _) hlt]
    simp

/-- C03, between two neighbouring tabulated energies: the straight line through both points. -/
theorem C03_linear_between (t : TransmissionTable K) (hs : SMap.Sorted t.table)
    (pre post : SMap K K) (x1 y1 x2 y2 e : K) (ht : t.table = pre ++ (x1, y1) :: (x2, y2) :: post)
    (h1 : x1 ≤ e) (h2 : e ≤ x2) :
    t.getTransmission e = y1 + (y2 - y1) * ((e - x1) / (x2 - x1)) ∧
    min y1 y2 ≤ t.getTransmission e ∧ t.getTransmission e ≤ max y1 y2 := by
  have hx : x1 < x2 := by
    rw [ht] at hs
    unfold SMap.Sorted at hs
    rw [List.pairwise_append, List.pairwise_cons] at hs
    exact hs.2.1.1 (x2, y2) (by simp)
  have hval : t.getTransmission e = y1 + (y2 - y1) * ((e - x1) / (x2 - x1)) := by
    rcases lt_or_eq_of_le h2 with hlt | heq
    · exact get_inside t pre post _ _ e ht hs h1 hlt
    · subst heq
      rw [C03_exact t hs e y2 (by rw [ht]; simp), div_self (ne_of_gt (sub_pos.2 hx))]
      ring
  refine ⟨hval, ?_⟩
  rw [hval]
  set f := (e - x1) / (x2 - x1) with hf
  have hf0 : 0 ≤ f := div_nonneg (sub_nonneg.2 h1) (le_of_lt (sub_pos.2 hx))
  have hf1 : f ≤ 1 := (div_le_one (sub_pos.2 hx)).2 (sub_le_sub_right h2 _)
  rcases le_total y1 y2 with hy | hy
  · rw [min_eq_left hy, max_eq_right hy]
    constructor <;> nlinarith
  · rw [min_eq_right hy, max_eq_left hy]
    constructor <;> nlinarith

/-- C03, outside the table: constant continuation with the first and the last value. -/
theorem C03_outside (t : TransmissionTable K) (hs : SMap.Sorted t.table) (x y e : K)
    (h : (x, y) ∈ t.table) :
    ((∀ p ∈ t.table, x ≤ p.1) → e ≤ x → t.getTransmission e = y) ∧
    ((∀ p ∈ t.table, p.1 ≤ x) → x ≤ e → t.getTransmission e = y) := by
  obtain ⟨pre, post, hsplit⟩ := List.append_of_mem h
  constructor
  · intro hall he
    have : pre = [] := by
      cases pre with
      | nil => rfl
      | cons p r =>
        exfalso
        have h1 := hall p (by rw [hsplit]; simp)
        rw [hsplit] at hs
        have h2 := (SMap.sorted_cons.1 hs).1 (x, y) (by simp)
        exact absurd h2 (not_lt.2 h1)
    subst this
    exact get_below t (x, y) post e hsplit hs he
  · intro hall he
    have : post = [] := by
      cases post with
      | nil => rfl
      | cons p r =>
        exfalso
        have h1 := hall p (by rw [hsplit]; simp)
        rw [hsplit] at hs
        unfold SMap.Sorted at hs
        rw [List.pairwise_append, List.pairwise_cons] at hs
        exact absurd (hs.2.1.1 p (by simp)) (not_lt.2 h1)
    subst this
    exact get_above t pre (x, y) e hsplit hs he

/-- C03, empty table (only reachable by setting an empty table): full transmission. -/
theorem C03_empty (t : TransmissionTable K) (h : t.table = []) (e : K) : t.getTransmission e = 1 := by
  simp [getTransmission, h]

/-- **C03** The overload for several energies returns one value per energy, in their order, each of them the value
returned for that energy alone. -/
theorem C03_vector (t : TransmissionTable K) (es : List K) :
    (t.getTransmissions es).length = es.length ∧
    ∀ (i : Nat) (e : K), es[i]? = some e → (t.getTransmissions es)[i]? = some (t.getTransmission e) := by
  refine ⟨by simp [getTransmissions], ?_⟩
  intro i e h
  simp [getTransmissions, h]

/-- Every energy falls in one of the cases above, so the answer of a non-empty table always lies between two
tabulated values. -/
theorem C03_bounded (t : TransmissionTable K) (hs : SMap.Sorted t.table) (hne : t.table ≠ []) (e : K) :
    ∃ p ∈ t.table, ∃ q ∈ t.table, p.2 ≤ t.getTransmission e ∧ t.getTransmission e ≤ q.2 := by
  obtain ⟨a, r, hr⟩ := List.exists_cons_of_ne_nil hne
  by_cases hbelow : e ≤ a.1
  · have := get_below t a r e hr hs hbelow
    exact ⟨a, by simp [hr], a, by simp [hr], by rw [this], by rw [this]⟩
  push Not at hbelow
  -- split at the last key not above e
  have key : ∀ (post : SMap K K) (pre : SMap K K) (a : K × K), t.table = pre ++ a :: post → a.1 ≤ e →
      ∃ p ∈ t.table, ∃ q ∈ t.table, p.2 ≤ t.getTransmission e ∧ t.getTransmission e ≤ q.2 := by
    intro post
    induction post with
    | nil =>
      intro pre a ht ha
      have := get_above t pre a e ht hs ha
      exact ⟨a, by simp [ht], a, by simp [ht], by rw [this], by rw [this]⟩
    | cons b post ih =>
      intro pre a ht ha
      by_cases hb : b.1 ≤ e
      · exact ih (pre ++ [a]) b (by simp [ht]) hb
      · push Not at hb
        obtain ⟨_, h1, h2⟩ := C03_linear_between t hs pre post a.1 a.2 b.1 b.2 e ht ha (le_of_lt hb)
        rcases le_total a.2 b.2 with h | h
        · rw [min_eq_left h] at h1
          rw [max_eq_right h] at h2
          exact ⟨a, by simp [ht], b, by simp [ht], h1, h2⟩
        · rw [min_eq_right h] at h1
          rw [max_eq_left h] at h2
          exact ⟨b, by simp [ht], a, by simp [ht], h1, h2⟩
  exact key r [] a hr (le_of_lt hbelow)

/-- A concrete table: exact, interpolated and outside values. -/
example :
    let t : TransmissionTable ℚ := ((new "" "").setLists [1, 2, 4] [1/10, 1/2, 1] "win" "").2
    SMap.Sorted t.table ∧ t.table ≠ [] ∧ t.getTransmission 2 = 1/2 ∧ t.getTransmission 3 = 3/4 ∧
      t.getTransmission (1/2) = 1/10 ∧ t.getTransmission 9 = 1 := by
  intro t
  refine ⟨by unfold SMap.Sorted; decide +kernel, by decide +kernel, by decide +kernel, by decide +kernel,
    by decide +kernel, by decide +kernel⟩

/-! ## C04: setters are all-or-nothing and keep the table physical -/

theorem C04_throw_leaves_unchanged (t : TransmissionTable K) (op : Op K)
    (h : (t.step op).1 ≠ .ok ()) : (t.step op).2 = t := by
  cases op with
  | setName n => exact absurd rfl h
  | setComment n => exact absurd rfl h
  | setMap m n c =>
    simp only [step, setMap] at h ⊢
    split
    · rfl
    · split
      · rfl
      · rename_i h1 h2; simp [h1, h2] at h
  | setLists e tr n c =>
    simp only [step, setLists] at h ⊢
    split
    · rfl
    · split
      · rfl
      · split
        · rfl
        · rename_i h1 h2 h3; simp only [h1, h2, h3, if_false] at h; exact absurd rfl h

/-- The user-visible soundness of a table: proper map, no negative energy or transmission. -/
def Physical (m : SMap K K) : Prop :=
  m.Pairwise (fun a b => a.1 < b.1) ∧ ∀ p ∈ m, 0 ≤ p.1 ∧ 0 ≤ p.2

theorem checkRows_nonneg (rows : List (K × K)) (mx : K) (h : checkRows rows mx = true) :
    ∀ p ∈ rows, 0 ≤ p.1 ∧ 0 ≤ p.2 := by
  induction rows generalizing mx with
  | nil => simp
  | cons r rest ih =>
    obtain ⟨e, tr⟩ := r
    unfold checkRows at h
    split at h
    · simp at h
    · split at h
      · simp at h
      · split at h
        · simp at h
        · rename_i h1 h2 h3
          intro p hp
          rcases List.mem_cons.1 hp with rfl | hp
          · exact ⟨not_lt.1 h1, not_lt.1 h3⟩
          · exact ih e h p hp

theorem delta_pos : (0 : K) < delta := by unfold delta; positivity

theorem fill_physical (rows : List (K × K)) (m : SMap K K) (hm : Physical m)
    (hr : ∀ p ∈ rows, 0 ≤ p.1 ∧ 0 ≤ p.2) : Physical (fill rows m) := by
  unfold fill
  induction rows generalizing m with
  | nil => exact hm
  | cons r rest ih =>
    rw [List.foldl_cons]
    apply ih _ _ (fun p hp => hr p (List.mem_cons_of_mem _ hp))
    have h0 := hr r (by simp)
    split
    · refine ⟨SMap.insert_sorted hm.1 _ _, ?_⟩
      intro p hp
      rcases SMap.mem_insert hp with rfl | hp
      · exact ⟨add_nonneg h0.1 (le_of_lt delta_pos), h0.2⟩
      · exact hm.2 p hp
    · refine ⟨SMap.insert_sorted hm.1 _ _, ?_⟩
      intro p hp
      rcases SMap.mem_insert hp with rfl | hp
      · exact h0
      · exact hm.2 p hp

/-- The maps a C++ caller can pass: properly ordered. -/
def OpWF : Op K → Prop
  | .setMap m _ _ => m.Pairwise (fun a b => a.1 < b.1)
  | _ => True

theorem step_physical (t : TransmissionTable K) (op : Op K) (hop : OpWF op) (h : Physical t.table) :
    Physical (t.step op).2.table := by
  cases op with
  | setName n => exact h
  | setComment n => exact h
  | setMap m n c =>
    simp only [step, setMap]
    split
    · exact h
    · split
      · exact h
      · rename_i h1 _
        exact ⟨hop, checkRows_nonneg m (-1) (by simpa using h1)⟩
  | setLists e tr n c =>
    simp only [step, setLists]
    split
    · exact h
    · split
      · exact h
      · split
        · exact h
        · rename_i h1 _ h3
          exact fill_physical _ _ ⟨List.Pairwise.nil, by simp⟩ (checkRows_nonneg _ (-1) (by simpa using h3))

/-- C04: after any history the table is physical and no lookup is negative. -/
theorem C04_physical_in_every_history (name comment : String) (ops : List (Op K))
    (hops : ∀ op ∈ ops, OpWF op) :
    Physical ((new name comment : TransmissionTable K).run ops).table ∧
    ∀ e, 0 ≤ ((new name comment : TransmissionTable K).run ops).getTransmission e := by
  have hall : ∀ t : TransmissionTable K, Physical t.table → Physical (t.run ops).table := by
    induction ops with
    | nil => intro t h; exact h
    | cons op r ih =>
      intro t h
      exact ih (fun o ho => hops o (List.mem_cons_of_mem _ ho)) _
        (step_physical t op (hops op (by simp)) h)
  have hp := hall (new name comment) ⟨by simp [new], by simp [new]⟩
  refine ⟨hp, fun e => ?_⟩
  by_cases hne : ((new name comment : TransmissionTable K).run ops).table = []
  · rw [C03_empty _ hne]; exact zero_le_one
  · obtain ⟨p, hpm, _, _, h1, _⟩ := C03_bounded _ hp.1 hne e
    exact le_trans (hp.2 p hpm).2 h1

/-- **C04** What an accepted call leaves: the new table, and the given name and comment, or the former ones when an
empty name or comment is given. -/
theorem C04_accepted (t : TransmissionTable K) (n c : String) :
    (∀ m, (t.setMap m n c).1 = .ok () → (t.setMap m n c).2.table = m ∧
      (t.setMap m n c).2.name = (if n = "" then t.name else n) ∧
      (t.setMap m n c).2.comment = (if c = "" then t.comment else c)) ∧
    (∀ es trs, (t.setLists es trs n c).1 = .ok () →
      (t.setLists es trs n c).2.name = (if n = "" then t.name else n) ∧
      (t.setLists es trs n c).2.comment = (if c = "" then t.comment else c) ∧
      (es = [] ↔ (t.setLists es trs n c).2.table = []) ∧
      (∀ p ∈ (t.setLists es trs n c).2.table, p.2 ∈ trs)) := by
  have hif : ∀ a b : String, (if a ≠ "" then a else b) = if a = "" then b else a := by
    intro a b; by_cases h : a = "" <;> simp [h]
  constructor
  · intro m h
    unfold setMap at h ⊢
    split at h
    · simp at h
    · rename_i h1
      split at h
      · simp at h
      · rename_i h2
        rw [if_neg h1, if_neg h2]
        exact ⟨rfl, hif n t.name, hif c t.comment⟩
  · intro es trs h
    unfold setLists at h ⊢
    split at h
    · simp at h
    · rename_i h1
      split at h
      · simp at h
      · rename_i h2
        split at h
        · simp at h
        · rename_i h3
          rw [if_neg h1, if_neg h2, if_neg h3]
          have hmem : ∀ (rows : List (K × K)) (m : SMap K K), ∀ p ∈ fill rows m, p ∈ m ∨ ∃ r ∈ rows, r.2 = p.2 := by
            intro rows
            induction rows with
            | nil => intro m p hp; exact Or.inl hp
            | cons r rest ih =>
              intro m p hp
              have hp' : p ∈ fill rest (if m.mem r.1 then m.insert (r.1 + delta) r.2 else m.insert r.1 r.2) := hp
              rcases ih _ p hp' with h | ⟨q, hq, h⟩
              · split at h
                · rcases SMap.mem_insert h with h | h
                  · exact Or.inr ⟨r, by simp, by rw [h]⟩
                  · exact Or.inl h
                · rcases SMap.mem_insert h with h | h
                  · exact Or.inr ⟨r, by simp, by rw [h]⟩
                  · exact Or.inl h
              · exact Or.inr ⟨q, List.mem_cons_of_mem _ hq, h⟩
          have hne : ∀ (rows : List (K × K)) (m : SMap K K), m ≠ [] → fill rows m ≠ [] := by
            have hi : ∀ (m : SMap K K) k v, m.insert k v ≠ [] := by
              intro m k v h
              have := SMap.find?_insert m k k v
              rw [h] at this; simp at this
            intro rows
            induction rows with
            | nil => intro m hm; exact hm
            | cons r rest ih =>
              intro m hm
              show fill rest (if m.mem r.1 then m.insert (r.1 + delta) r.2 else m.insert r.1 r.2) ≠ []
              apply ih
              split <;> exact hi _ _ _
          refine ⟨hif n t.name, hif c t.comment, ?_, ?_⟩
          · show es = [] ↔ fill (es.zip trs) [] = []
            constructor
            · rintro rfl; rfl
            · intro hf
              by_contra hes
              cases es with
              | nil => exact hes rfl
              | cons e r =>
                cases trs with
                | nil => simp at h2
                | cons y r' =>
                  refine hne (r.zip r') [(e, y)] (by simp) ?_
                  exact hf
          · intro p hp
            rcases hmem _ _ p hp with h | ⟨q, hq, h⟩
            · simp at h
            · rw [← h]; exact (List.of_mem_zip hq).2

/-- The hypothesis of C04_accepted is met: a named table keeps its name when it is filled again. -/
example : ∃ t : TransmissionTable ℚ, t = new "Kapton" "" ∧
    (t.setLists [1, 2] [1 / 2, 1] "" "50 um").1 = .ok () ∧
    (t.setLists [1, 2] [1 / 2, 1] "" "50 um").2 = ⟨"Kapton", "50 um", [(1, 1 / 2), (2, 1)]⟩ := by
  refine ⟨_, rfl, ?_⟩
  decide +kernel

/-- C04: a name, once present, is not replaced by `setTransmissionTable` (such a call is rejected). -/
theorem C04_no_rename (t : TransmissionTable K) (h : t.name ≠ "") (n : String) (hn : n ≠ "")
    (m : SMap K K) (es ts : List K) (c : String) :
    (t.setMap m n c).1 = .throw .invalidArgument ∧ (t.setLists es ts n c).1 = .throw .invalidArgument := by
  have hr : t.renames n c = true := by simp [renames, h, hn]
  simp only [setMap, setLists, hr, if_true, and_true]
  split <;> rfl

/-- Non-vacuity of C04: a history with a rejected call, a renaming attempt and an accepted table. -/
example :
    let ops : List (Op ℚ) := [.setLists [1, 2] [1/2, -1] "a" "", .setMap [(1, 1/2), (3, 1)] "b" "c",
      .setMap [(1, 0)] "d" ""]
    (∀ op ∈ ops, OpWF op) ∧ ((new "" "" : TransmissionTable ℚ).run ops) = ⟨"b", "c", [(1, 1/2), (3, 1)]⟩ := by
  intro ops
  constructor
  · intro op hop
    simp only [ops, List.mem_cons, List.not_mem_nil, or_false] at hop
    rcases hop with rfl | rfl | rfl <;> simp [OpWF]
  · decide +kernel

/-! ## C05: rows of an accepted list -/

/-- Where a user expects row `i` to be stored: at its energy, or one millionth higher when the same
energy was already given in an earlier row. -/
def slot (energy : List K) (i : Nat) : K :=
  if energy.getD i 0 ∈ energy.take i then energy.getD i 0 + 1 / 1000000 else energy.getD i 0

/-- The full claim C05 is false: of three rows with one energy the second one is lost. -/
theorem C05_violated : ∃ (energy transmission : List ℚ),
    ((new "" "").setLists energy transmission "" "").1 = .ok () ∧
    ∃ i < energy.length, ((new "" "").setLists energy transmission "" "").2.table.find? (slot energy i)
      ≠ transmission[i]? := by
  refine ⟨[5, 5, 5], [1/10, 1/2, 1], by decide +kernel, 1, by decide, by decide +kernel⟩

theorem fill_concat (rows : List (K × K)) (r : K × K) :
    fill (rows ++ [r]) [] = if (fill rows []).mem r.1 then (fill rows []).insert (r.1 + delta) r.2
      else (fill rows []).insert r.1 r.2 := by
  unfold fill
  rw [List.foldl_append]
  rfl

theorem fill_rows (rows : List (K × K))
    (hgap : ∀ p ∈ rows, ∀ q ∈ rows, q.1 ≠ p.1 + delta)
    (hcount : ∀ p ∈ rows, (rows.map Prod.fst).count p.1 ≤ 2) :
    (∀ k, (fill rows []).find? k ≠ none → k ∈ rows.map Prod.fst ∨ k - delta ∈ rows.map Prod.fst) ∧
    (∀ p ∈ rows, (fill rows []).find? p.1 ≠ none) ∧
    (∀ i (hi : i < rows.length), (fill rows []).find?
      (if rows[i].1 ∈ (rows.map Prod.fst).take i then rows[i].1 + delta else rows[i].1)
        = some rows[i].2) := by
  induction rows using List.reverseRecOn with
  | nil => simp [fill]
  | append_singleton P x ih =>
    obtain ⟨h1, h2, h3⟩ := ih (fun p hp q hq => hgap p (by simp [hp]) q (by simp [hq]))
      (fun p hp => le_trans (by simp [List.count_append]) (hcount p (by simp [hp])))
    have hmem : (fill P []).mem x.1 = true ↔ x.1 ∈ P.map Prod.fst := by
      constructor
      · intro hm
        have hne : (fill P []).find? x.1 ≠ none := by
          intro h; simp [SMap.mem, h] at hm
        rcases h1 x.1 hne with h | h
        · exact h
        · exfalso
          obtain ⟨p, hp, hpe⟩ := List.mem_map.1 h
          exact hgap p (by simp [hp]) x (by simp) (by rw [hpe]; ring)
      · intro hm
        obtain ⟨p, hp, hpe⟩ := List.mem_map.1 hm
        have := h2 p hp
        rw [hpe] at this
        unfold SMap.mem
        exact Option.isSome_iff_ne_none.2 this
    rw [fill_concat]
    by_cases hx : x.1 ∈ P.map Prod.fst
    · rw [if_pos (hmem.2 hx)]
      refine ⟨?_, ?_, ?_⟩
      · intro k hk
        rw [SMap.find?_insert] at hk
        by_cases hk2 : x.1 + delta = k
        · right
          rw [← hk2]
          simp
        · rw [if_neg hk2] at hk
          rcases h1 k hk with h | h
          · left; simp only [List.map_append, List.mem_append]; exact Or.inl h
          · right; simp only [List.map_append, List.mem_append]; exact Or.inl h
      · intro p hp
        rw [SMap.find?_insert]
        split
        · simp
        · rcases List.mem_append.1 hp with hp | hp
          · exact h2 p hp
          · simp at hp
            subst hp
            obtain ⟨q, hq, hqe⟩ := List.mem_map.1 hx
            rw [← hqe]
            exact h2 q hq
      · intro i hi
        simp only [List.length_append, List.length_singleton] at hi
        by_cases hiP : i < P.length
        · have e1 : (P ++ [x])[i] = P[i] := List.getElem_append_left hiP
          have e2 : ((P ++ [x]).map Prod.fst).take i = (P.map Prod.fst).take i := by
            rw [List.map_append, List.take_append_of_le_length (by simp; omega)]
          rw [e2]
          simp only [e1]
          rw [SMap.find?_insert, if_neg, h3 i hiP]
          split
          · rename_i hrep
            intro heq
            have heq' : x.1 = P[i].1 := by simpa using heq
            -- three occurrences
            have hc := hcount x (by simp)
            have hc1 : 1 ≤ ((P.map Prod.fst).take i).count x.1 := by
              rw [heq']; exact List.one_le_count_iff.2 hrep
            have hc2 : 1 ≤ ((P.map Prod.fst).drop i).count x.1 := by
              apply List.one_le_count_iff.2
              rw [heq', List.drop_eq_getElem_cons (by simpa using hiP)]
              simp
            have hsplit : (P.map Prod.fst).count x.1
                = ((P.map Prod.fst).take i).count x.1 + ((P.map Prod.fst).drop i).count x.1 := by
              rw [← List.count_append, List.take_append_drop]
            rw [List.map_append, List.count_append] at hc
            simp only [List.map_cons, List.map_nil, List.count_singleton_self] at hc
            omega
          · intro heq
            exact hgap x (by simp) P[i] (by simp) heq.symm
        · have : i = P.length := by omega
          subst this
          have e1 : (P ++ [x])[P.length] = x := by simp
          have e2 : ((P ++ [x]).map Prod.fst).take P.length = P.map Prod.fst := by simp
          rw [e2]
          simp only [e1]
          rw [if_pos hx, SMap.find?_insert]
          simp
    · rw [if_neg (fun h => hx (hmem.1 h))]
      refine ⟨?_, ?_, ?_⟩
      · intro k hk
        rw [SMap.find?_insert] at hk
        by_cases hk2 : x.1 = k
        · left; rw [← hk2]; simp
        · rw [if_neg hk2] at hk
          rcases h1 k hk with h | h
          · left; simp only [List.map_append, List.mem_append]; exact Or.inl h
          · right; simp only [List.map_append, List.mem_append]; exact Or.inl h
      · intro p hp
        rw [SMap.find?_insert]
        split
        · simp
        · rcases List.mem_append.1 hp with hp | hp
          · exact h2 p hp
          · simp at hp; subst hp; simp_all
      · intro i hi
        simp only [List.length_append, List.length_singleton] at hi
        by_cases hiP : i < P.length
        · have e1 : (P ++ [x])[i] = P[i] := List.getElem_append_left hiP
          have e2 : ((P ++ [x]).map Prod.fst).take i = (P.map Prod.fst).take i := by
            rw [List.map_append, List.take_append_of_le_length (by simp; omega)]
          rw [e2]
          simp only [e1]
          rw [SMap.find?_insert, if_neg, h3 i hiP]
          split
          · intro heq
            exact hgap P[i] (by simp) x (by simp) heq
          · intro heq
            exact hx (by rw [heq]; exact List.mem_map_of_mem (List.getElem_mem _))
        · have : i = P.length := by omega
          subst this
          have e1 : (P ++ [x])[P.length] = x := by simp
          have e2 : ((P ++ [x]).map Prod.fst).take P.length = P.map Prod.fst := by simp
          rw [e2]
          simp only [e1]
          rw [if_neg hx, SMap.find?_insert]
          simp

/-- C05, the part that holds: when no energy is given more than twice and no supplied energy is exactly one
millionth above another one, every row of an accepted list is found at its slot. Missing with respect
to C05: three or more rows with the same energy, and energies exactly one millionth apart. -/
theorem C05_rows_kept_partial (t : TransmissionTable K) (energy transmission : List K)
    (name comment : String) (hok : (t.setLists energy transmission name comment).1 = .ok ())
    (hgap : ∀ a ∈ energy, ∀ b ∈ energy, b ≠ a + 1 / 1000000)
    (hcount : ∀ a ∈ energy, energy.count a ≤ 2) (i : Nat) (hi : i < energy.length) :
    (t.setLists energy transmission name comment).2.table.find? (slot energy i) = transmission[i]? := by
  unfold setLists at hok ⊢
  split at hok
  · simp at hok
  · rename_i h1
    split at hok
    · simp at hok
    · rename_i h2
      split at hok
      · simp at hok
      · rename_i h3
        rw [if_neg h1, if_neg h2, if_neg h3]
        simp only [assign]
        have hlen : energy.length = transmission.length := by simpa using h2
        have hfst : (energy.zip transmission).map Prod.fst = energy := List.map_fst_zip (le_of_eq hlen)
        have hmemfst : ∀ p ∈ energy.zip transmission, p.1 ∈ energy := fun p hp => (List.of_mem_zip hp).1
        have hkey := (fill_rows (energy.zip transmission)
          (fun p hp q hq => hgap p.1 (hmemfst p hp) q.1 (hmemfst q hq))
          (fun p hp => by rw [hfst]; exact hcount p.1 (hmemfst p hp))).2.2 i (by simp; omega)
        rw [hfst] at hkey
        simp only [List.getElem_zip] at hkey
        have hg : energy.getD i 0 = energy[i] := by simp [hi]
        unfold slot
        rw [hg, List.getElem?_eq_getElem (by omega)]
        exact hkey

/-- The hypotheses of `C05_rows_kept_partial` are met by a table with an edge (repeated energy). -/
example :
    let energy : List ℚ := [1, 5, 5, 7]
    ((new "" "").setLists energy [1/10, 1/5, 1/2, 1] "" "").1 = .ok () ∧
    (∀ a ∈ energy, ∀ b ∈ energy, b ≠ a + 1 / 1000000) ∧ (∀ a ∈ energy, energy.count a ≤ 2) ∧
    slot energy 2 = 5 + 1/1000000 := by
  intro energy
  refine ⟨by decide +kernel, by decide +kernel, by decide +kernel, by decide +kernel⟩

end Fisx.TransmissionTable
