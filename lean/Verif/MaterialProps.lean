import Verif.Material

/-!
# Properties of `Material`: C01, C02, C55
-/

set_option linter.unusedSectionVars false

namespace Fisx.Material

variable {K : Type} [Field K] [LinearOrder K] [IsStrictOrderedRing K]

/-! ## Helper lemmas -/


theorem checkAmounts_ok (l : List K) (t : K) (h : ∀ a ∈ l, 0 < a) :
    checkAmounts l t = .ok (t + l.sum) := by
  induction l generalizing t with
  | nil => simp [checkAmounts]
  | cons a r ih =>
    have ha : ¬ a ≤ 0 := not_le.2 (h a (by simp))
    simp only [checkAmounts, ha, if_false, List.sum_cons]
    rw [ih _ (fun x hx => h x (List.mem_cons_of_mem _ hx)), add_assoc]


theorem checkAmounts_throw (l : List K) (t : K) (h : ∃ a ∈ l, a ≤ 0) :
    checkAmounts l t = .throw .invalidArgument := by
  induction l generalizing t with
  | nil => simp at h
  | cons a r ih =>
    by_cases ha : a ≤ 0
    · simp [checkAmounts, ha]
    · simp only [checkAmounts, ha, if_false]
      apply ih
      obtain ⟨x, hx, hx0⟩ := h
      rcases List.mem_cons.1 hx with rfl | hx
      · exact absurd hx0 ha
      · exact ⟨x, hx, hx0⟩


theorem fillComposition_eq (l : List (String × K)) (t : K) (c : SMap String K) :
    fillComposition l t c
      = (l.map (fun e => (e.1, e.2 / t))).foldl (fun m e => SMap.insert m e.1 e.2) c := by
  induction l generalizing c with
  | nil => rfl
  | cons e r ih => obtain ⟨n, a⟩ := e; simp only [fillComposition, ih, List.map_cons, List.foldl_cons]


theorem setComposition_ok (m : Material K) (names : List String) (amounts : List K)
    (hl : names.length = amounts.length) (hp : ∀ a ∈ amounts, 0 < a) :
    m.setComposition names amounts = (.ok (), { m with
      composition := SMap.ofList ((names.zip amounts).map (fun e => (e.1, e.2 / amounts.sum))) }) := by
  simp only [setComposition, hl, ne_eq, not_true_eq_false, if_false, checkAmounts_ok amounts 0 hp,
    zero_add, fillComposition_eq, SMap.ofList]

theorem foldl_insert_total_lt (l : List (String × K)) (m : SMap String K) (hs : SMap.Sorted m)
    (hp : ∀ e ∈ l, 0 < e.2) (hm : ∀ e ∈ m, 0 < e.2) :
    SMap.total (l.foldl (fun m e => SMap.insert m e.1 e.2) m) ≤ (l.map Prod.snd).sum + SMap.total m ∧
    (¬ ((l.map Prod.fst).Nodup ∧ ∀ e ∈ l, SMap.find? m e.1 = none) →
      SMap.total (l.foldl (fun m e => SMap.insert m e.1 e.2) m)
        < (l.map Prod.snd).sum + SMap.total m) := by
  induction l generalizing m with
  | nil => simp
  | cons e r ih =>
    have hm' : ∀ x ∈ SMap.insert m e.1 e.2, 0 < x.2 := by
      intro x hx
      rcases SMap.mem_insert hx with rfl | hx
      · exact hp e (by simp)
      · exact hm x hx
    obtain ⟨h1, h2⟩ := ih (SMap.insert m e.1 e.2) (SMap.insert_sorted hs _ _)
      (fun x hx => hp x (List.mem_cons_of_mem _ hx)) hm'
    have hti := SMap.total_insert m e.1 e.2 hs
    have hge : 0 ≤ (SMap.find? m e.1).getD 0 := by
      cases hf : SMap.find? m e.1 with
      | none => simp
      | some v => exact le_of_lt (hm _ (SMap.mem_of_find? hf))
    simp only [List.foldl_cons, List.map_cons, List.sum_cons]
    refine ⟨by linarith, ?_⟩
    intro hnot
    by_cases hf : SMap.find? m e.1 = none
    · have : ¬ ((r.map Prod.fst).Nodup ∧
          ∀ x ∈ r, SMap.find? (SMap.insert m e.1 e.2) x.1 = none) := by
        intro ⟨hnd, hall⟩
        apply hnot
        have hne : ∀ x ∈ r, e.1 ≠ x.1 := by
          intro x hx heq
          have := hall x hx
          rw [SMap.find?_insert, if_pos heq] at this
          simp at this
        refine ⟨?_, ?_⟩
        · rw [List.nodup_cons]
          refine ⟨?_, hnd⟩
          intro hmem
          obtain ⟨x, hx, hxe⟩ := List.mem_map.1 hmem
          exact hne x hx hxe.symm
        · intro x hx
          rcases List.mem_cons.1 hx with rfl | hx
          · exact hf
          · have := hall x hx
            rwa [SMap.find?_insert, if_neg (hne x hx)] at this
      have := h2 this
      linarith
    · have : 0 < (SMap.find? m e.1).getD 0 := by
        cases hf' : SMap.find? m e.1 with
        | none => exact absurd hf' hf
        | some v => exact hm _ (SMap.mem_of_find? hf')
      linarith

theorem sum_div (l : List K) (t : K) : (l.map (fun a => a / t)).sum = l.sum / t := by
  induction l with
  | nil => simp
  | cons a r ih => simp [ih, add_div]

/-! ## C01: the composition is normalised

Specification: a composition is *normalised* when its fractions are positive and add up to one. -/

/-- What "normalised mass fractions" means to a user. -/
def Normalised (c : SMap String K) : Prop := (∀ e ∈ c, 0 < e.2) ∧ (c.map Prod.snd).sum = 1

/-- Property C01, map overload. For every non-empty `std::map` given by the user the call is accepted
exactly when all the amounts are positive, and then the stored composition has the same components,
each with its amount divided by the total amount, and it is normalised. -/
theorem C01_map_normalised (m : Material K) (c : SMap String K) (hs : SMap.Sorted c) (hne : c ≠ []) :
    ((m.setCompositionMap c).1 = .ok () ↔ ∀ e ∈ c, 0 < e.2) ∧
    ((m.setCompositionMap c).1 = .ok () →
      Normalised (m.setCompositionMap c).2.composition ∧
      (m.setCompositionMap c).2.composition
        = c.map (fun e => (e.1, e.2 / (c.map Prod.snd).sum))) := by
  have hok : (m.setCompositionMap c).1 = .ok () ↔ ∀ e ∈ c, 0 < e.2 := by
    constructor
    · intro h e he
      by_contra hneg
      have hex : ∃ a ∈ c.map Prod.snd, a ≤ 0 := ⟨e.2, List.mem_map_of_mem he, not_lt.1 hneg⟩
      simp [setCompositionMap, setComposition, checkAmounts_throw _ _ hex] at h
    · intro h
      rw [setCompositionMap, setComposition_ok _ _ _ (by simp)]
      simpa using fun a b hab => h (b, a) hab
  refine ⟨hok, fun h => ?_⟩
  have hpos := hok.1 h
  have hzip : (c.map Prod.fst).zip (c.map Prod.snd) = c := by
    clear hs hne hok h hpos
    induction c with
    | nil => rfl
    | cons e r ih => simp [ih]
  have hcomp : (m.setCompositionMap c).2.composition
      = c.map (fun e => (e.1, e.2 / (c.map Prod.snd).sum)) := by
    rw [setCompositionMap, setComposition_ok _ _ _ (by simp)
      (by simpa using fun a b hab => hpos (b, a) hab), hzip]
    simp only
    apply SMap.ofList_eq_self
    unfold SMap.Sorted at hs ⊢
    rw [List.pairwise_map]
    exact hs
  have hsum : 0 < (c.map Prod.snd).sum := by
    apply List.sum_pos
    · intro x hx
      obtain ⟨e, he, rfl⟩ := List.mem_map.1 hx
      exact hpos e he
    · simpa using hne
  refine ⟨⟨?_, ?_⟩, hcomp⟩
  · rw [hcomp]
    intro e he
    obtain ⟨x, hx, rfl⟩ := List.mem_map.1 he
    exact div_pos (hpos x hx) hsum
  · rw [hcomp, List.map_map]
    have := sum_div (c.map Prod.snd) (c.map Prod.snd).sum
    rw [List.map_map] at this
    rw [show (Prod.snd ∘ fun e : String × K => (e.1, e.2 / (c.map Prod.snd).sum))
      = ((fun a => a / (c.map Prod.snd).sum) ∘ Prod.snd) from rfl, this, div_self (ne_of_gt hsum)]

/-- C01 applies to a real composition: glass-like, three components. -/
example : SMap.Sorted ([("Ca", 1), ("O", 5), ("Si", 2)] : SMap String ℚ) ∧
    ((new : Material ℚ).setCompositionMap [("Ca", 1), ("O", 5), ("Si", 2)]).1 = .ok () ∧
    ((new : Material ℚ).setCompositionMap [("Ca", 1), ("O", 5), ("Si", 2)]).2.composition
      = [("Ca", 1/8), ("O", 5/8), ("Si", 1/4)] := by
  refine ⟨?_, ?_, ?_⟩
  · unfold SMap.Sorted; decide
  · decide +kernel
  · decide +kernel

/-- Property C01, list overload, exact characterisation: an accepted non-empty list of names and
amounts gives a normalised composition if and only if no name is repeated. -/
theorem C01_list_normalised_iff_distinct (m : Material K) (names : List String) (amounts : List K)
    (hne : names ≠ []) (hok : (m.setComposition names amounts).1 = .ok ()) :
    Normalised (m.setComposition names amounts).2.composition ↔ names.Nodup := by
  have hlen : names.length = amounts.length := by
    by_contra h
    simp [setComposition, h] at hok
  have hpos : ∀ a ∈ amounts, 0 < a := by
    intro a ha
    by_contra hneg
    have := checkAmounts_throw amounts 0 ⟨a, ha, not_lt.1 hneg⟩
    simp [setComposition, hlen, this] at hok
  have hane : amounts ≠ [] := by
    intro h; apply hne; rw [h] at hlen; simpa using hlen
  have hsum : 0 < amounts.sum := List.sum_pos _ hpos hane
  rw [setComposition_ok m names amounts hlen hpos]
  simp only
  set l := (names.zip amounts).map (fun e => (e.1, e.2 / amounts.sum)) with hl
  have hl1 : l.map Prod.fst = names := by
    rw [hl, List.map_map]
    exact List.map_fst_zip (le_of_eq hlen)
  have hl2 : (l.map Prod.snd).sum = 1 := by
    have h2 : l.map Prod.snd = amounts.map (fun a => a / amounts.sum) := by
      rw [hl, List.map_map]
      have h3 := List.map_snd_zip (le_of_eq hlen.symm) (l₁ := names)
      calc _ = ((names.zip amounts).map Prod.snd).map (fun a => a / amounts.sum) := by
            rw [List.map_map]; rfl
        _ = _ := by rw [h3]
    rw [h2, sum_div, div_self (ne_of_gt hsum)]
  have hlpos : ∀ e ∈ l, 0 < e.2 := by
    intro e he
    obtain ⟨x, hx, rfl⟩ := List.mem_map.1 he
    exact div_pos (hpos _ (List.of_mem_zip hx).2) hsum
  constructor
  · intro ⟨_, hn⟩
    by_contra hnd
    have := (foldl_insert_total_lt l [] SMap.sorted_nil hlpos (by simp)).2
      (by rw [hl1]; exact fun h => hnd h.1)
    rw [hl2] at this
    unfold SMap.ofList at hn
    unfold SMap.total at this
    simp only [List.map_nil, List.sum_nil, add_zero] at this
    exact absurd hn (ne_of_lt this)
  · intro hnd
    refine ⟨fun e he => hlpos e (SMap.ofList_mem he), ?_⟩
    have := SMap.ofList_total l (by rw [hl1]; exact hnd)
    rw [hl2] at this
    exact this

/-- The proportionality part of C01 for the list overload: with distinct names, each component gets
its amount divided by the total, and nothing else is in the composition. -/
theorem C01_list_fractions (m : Material K) (names : List String) (amounts : List K)
    (hnd : names.Nodup) (hok : (m.setComposition names amounts).1 = .ok ()) (i : Nat)
    (hi : i < names.length) (hi' : i < amounts.length) :
    (m.setComposition names amounts).2.composition.find? names[i] = some (amounts[i] / amounts.sum) := by
  have hlen : names.length = amounts.length := by
    by_contra h
    simp [setComposition, h] at hok
  have hpos : ∀ a ∈ amounts, 0 < a := by
    intro a ha
    by_contra hneg
    have := checkAmounts_throw amounts 0 ⟨a, ha, not_lt.1 hneg⟩
    simp [setComposition, hlen, this] at hok
  rw [setComposition_ok m names amounts hlen hpos]
  simp only
  set l := (names.zip amounts).map (fun e => (e.1, e.2 / amounts.sum)) with hl
  have hl1 : l.map Prod.fst = names := by
    rw [hl, List.map_map]
    exact List.map_fst_zip (le_of_eq hlen)
  unfold SMap.ofList
  rw [SMap.foldl_insert_find? _ _ _ (by rw [hl1]; exact hnd)]
  have hmem : (names[i], amounts[i] / amounts.sum) ∈ l := by
    rw [hl, List.mem_map]
    refine ⟨(names[i], amounts[i]), ?_, rfl⟩
    have : (names.zip amounts)[i]'(by simp [hi, hi']) = (names[i], amounts[i]) := by simp
    rw [← this]
    exact List.getElem_mem _
  rw [SMap.find?_of_mem_nodup (by rw [hl1]; exact hnd) hmem]

/-- The hypotheses of the two list theorems are met: distinct names, accepted. -/
example : (["H", "O"] : List String).Nodup ∧
    ((new : Material ℚ).setComposition ["H", "O"] [2, 16]).1 = .ok () ∧
    ((new : Material ℚ).setComposition ["H", "O"] [2, 16]).2.composition
      = [("H", 1/9), ("O", 8/9)] := by decide +kernel

/-- C55 (the unrestricted claim) is false: with a repeated name the list overload accepts the data and
stores fractions whose sum is 2/3. -/
theorem C55_repeated_names_violated :
    ∃ (names : List String) (amounts : List ℚ),
      ((new : Material ℚ).setComposition names amounts).1 = .ok () ∧
      ¬ Normalised ((new : Material ℚ).setComposition names amounts).2.composition := by
  refine ⟨["Fe", "Fe", "O"], [1, 1, 1], by decide +kernel, ?_⟩
  rintro ⟨_, h⟩
  revert h
  decide +kernel

/-! ## C02: every history keeps the material valid -/

/-- What a user may rely on: an initialised material has a name and positive defaults, and its
composition has positive fractions with each component listed once. -/
structure Valid (m : Material K) : Prop where
  name_ne : m.initialized = true → m.name ≠ ""
  density_pos : 0 < m.defaultDensity
  thickness_pos : 0 < m.defaultThickness
  comp_pos : ∀ e ∈ m.composition, 0 < e.2
  comp_keys : m.composition.Pairwise (fun a b => a.1 < b.1)

theorem valid_new : Valid (new : Material K) :=
  ⟨by simp [new], by simp [new], by simp [new], by simp [new], by simp [new]⟩

/-- A failing call changes nothing at all. -/
theorem C02_throw_leaves_unchanged (m : Material K) (op : Op K) (h : (m.step op).1 ≠ .ok ()) :
    (m.step op).2 = m := by
  have hsc : ∀ names amounts, (m.setComposition names amounts).1 ≠ .ok () →
      (m.setComposition names amounts).2 = m := by
    intro names amounts h
    unfold setComposition at h ⊢
    split
    · rfl
    · rename_i hl
      simp only [hl, if_false] at h
      cases hc : checkAmounts amounts 0 <;> simp_all
  have hin : ∀ n (d t : K) c, (m.init n d t c).1 ≠ .ok () → (m.init n d t c).2 = m := by
    intro n d t c h
    unfold init at h ⊢
    repeat' (split; · rfl)
    simp_all
  cases op with
  | setName n =>
    simp only [step, setName] at h ⊢
    split
    · rfl
    · rename_i hi
      simp only [hi] at h
      exact hin _ _ _ _ (by simpa using h)
  | init n d t c => exact hin _ _ _ _ h
  | setComposition ns as => exact hsc _ _ h
  | setCompositionMap c => exact hsc _ _ h

theorem step_valid (m : Material K) (op : Op K) (hv : Valid m) : Valid (m.step op).2 := by
  by_cases hok : (m.step op).1 = .ok ()
  swap
  · rw [C02_throw_leaves_unchanged m op hok]; exact hv
  have hin : ∀ n (d t : K) c, Valid (m.init n d t c).2 := by
    intro n d t c
    unfold init
    split
    · exact hv
    · split
      · exact hv
      · split
        · exact hv
        · rename_i h1 h2 h3
          refine ⟨?_, not_le.1 h2, not_le.1 h3, hv.comp_pos, hv.comp_keys⟩
          intro _ h
          simp only at h
          subst h
          simp at h1
  have hsc : ∀ names amounts, (m.setComposition names amounts).1 = .ok () →
      Valid (m.setComposition names amounts).2 := by
    intro names amounts h
    have hlen : names.length = amounts.length := by
      by_contra h'
      simp [setComposition, h'] at h
    have hpos : ∀ a ∈ amounts, 0 < a := by
      intro a ha
      by_contra hneg
      have := checkAmounts_throw amounts 0 ⟨a, ha, not_lt.1 hneg⟩
      simp [setComposition, hlen, this] at h
    rw [setComposition_ok _ _ _ hlen hpos]
    refine ⟨hv.name_ne, hv.density_pos, hv.thickness_pos, ?_, SMap.ofList_sorted _⟩
    intro e he
    have he' := SMap.ofList_mem he
    obtain ⟨x, hx, rfl⟩ := List.mem_map.1 he'
    have hxa := (List.of_mem_zip hx).2
    have hne : amounts ≠ [] := by intro h'; simp [h'] at hxa
    exact div_pos (hpos _ hxa) (List.sum_pos _ hpos hne)
  cases op with
  | setName n =>
    simp only [step, setName]
    split
    · exact hv
    · exact hin _ _ _ _
  | init n d t c => exact hin _ _ _ _
  | setComposition ns as => exact hsc _ _ hok
  | setCompositionMap c => exact hsc _ _ hok

/-- Property C02: validity holds after every sequence of API calls, failing ones included, on a
default constructed material. -/
theorem C02_valid_in_every_history (ops : List (Op K)) : Valid ((new : Material K).run ops) := by
  have : ∀ m : Material K, Valid m → Valid (m.run ops) := by
    induction ops with
    | nil => intro m h; exact h
    | cons op r ih => intro m h; exact ih _ (step_valid m op h)
  exact this _ valid_new

/-- The same starting from the constructor with arguments, which throws exactly on an empty name or a
non positive density or thickness. -/
theorem C02_constructor (name : String) (d t : K) (c : String) :
    ((∃ m, mk? name d t c = .ok m) ↔ name ≠ "" ∧ 0 < d ∧ 0 < t) ∧
    ∀ m, mk? name d t c = .ok m → m.name = name ∧ m.defaultDensity = d ∧ m.defaultThickness = t ∧
      m.comment = c ∧ m.composition = [] ∧ ∀ ops, Valid (m.run ops) := by
  have hlen : name.length < 1 ↔ name = "" := by
    rw [Nat.lt_one_iff, String.length_eq_zero_iff]
  have hrun : ∀ (ops : List (Op K)) (m : Material K), Valid m → Valid (m.run ops) := by
    intro ops
    induction ops with
    | nil => intro m h; exact h
    | cons op r ih => intro m h; exact ih _ (step_valid m op h)
  unfold mk? init
  simp only [hlen]
  by_cases h1 : name = ""
  · simp [h1]
  by_cases h2 : d ≤ 0
  · simp [h1, h2, not_lt.2 h2]
  by_cases h3 : t ≤ 0
  · simp [h1, h2, h3, not_lt.2 h3]
  simp only [h1, h2, h3, if_false]
  refine ⟨⟨fun _ => ⟨h1, not_le.1 h2, not_le.1 h3⟩, fun _ => ⟨_, rfl⟩⟩, ?_⟩
  intro m hm
  simp only [Outcome.ok.injEq] at hm
  subst hm
  refine ⟨rfl, rfl, rfl, rfl, rfl, fun ops => hrun ops _ ?_⟩
  exact ⟨fun _ => h1, not_le.1 h2, not_le.1 h3, by simp [new], by simp [new]⟩

/-- `setName` can name a material once only: it succeeds on a non-empty name exactly when the material
is not initialised, and afterwards every `setName` is rejected, whatever compositions are set. -/
theorem C02_setName_once (m : Material K) (n : String) (h : m.initialized = true) :
    (m.setName n).1 = .throw .invalidArgument ∧ (m.setName n).2 = m := by
  simp [setName, h]

/-- No history made of `setName` and `setComposition` calls renames an initialised material. -/
theorem C02_name_stable (m : Material K) (ops : List (Op K)) (hi : m.initialized = true)
    (hops : ∀ op ∈ ops, ∀ n d t c, op ≠ .init n d t c) :
    (m.run ops).name = m.name := by
  induction ops generalizing m with
  | nil => rfl
  | cons op r ih =>
    have hstep : (m.step op).2.name = m.name ∧ (m.step op).2.initialized = true := by
      have hsc : ∀ ns as, (m.setComposition ns as).2.name = m.name ∧
          (m.setComposition ns as).2.initialized = true := by
        intro ns as
        unfold setComposition
        split
        · exact ⟨rfl, hi⟩
        · cases checkAmounts as 0 <;> exact ⟨rfl, hi⟩
      cases op with
      | setName n => simp [step, setName, hi]
      | init n d t c => exact absurd rfl (hops _ (by simp) n d t c)
      | setComposition ns as => exact hsc _ _
      | setCompositionMap c => exact hsc _ _
    have := ih (m.step op).2 hstep.2 (fun o ho => hops o (List.mem_cons_of_mem _ ho))
    unfold run at this ⊢
    rw [List.foldl_cons, this, hstep.1]

/-- The hypotheses of `C02_name_stable` are met, and the excluded call really renames (the guard in
fisx_material.cpp:68-74 is commented out): "once named, never renamed" fails for `initialize`. -/
theorem C02_initialize_renames :
    ∃ m : Material ℚ, m.initialized = true ∧
      ((m.init "b" 1 1 "").1 = .ok () ∧ (m.init "b" 1 1 "").2.name ≠ m.name) := by
  refine ⟨((new : Material ℚ).init "a" 2 3 "").2, ?_⟩
  decide +kernel

example : ∃ m : Material ℚ, m.initialized = true ∧ (m.run [.setName "x", .setComposition ["H"] [1],
    .setComposition ["H"] [-1]]).name = "a" ∧
    (m.run [.setName "x", .setComposition ["H"] [1], .setComposition ["H"] [-1]]).composition
      = [("H", 1)] := by
  refine ⟨((new : Material ℚ).init "a" 2 3 "").2, ?_⟩
  decide +kernel

end Fisx.Material
