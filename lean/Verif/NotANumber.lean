import Verif.Detector
import Verif.Material
import Verif.Beam
import Verif.BeamProps
import Verif.TransmissionTable

/-!
# C179-C182: numbers that are not finite

The other modules compute with the elements of an ordered field. Here the arguments are `double`s that may be infinite or NaN, and the
comparisons are those of IEEE 754 (any comparison with NaN is false). Simplified: arithmetic on the finite ones is exact, and zeros
have no sign.
-/

set_option linter.unusedSectionVars false

namespace Fisx

/-- A `double`: not-a-number, an infinity or a number. -/
inductive Dbl (K : Type)
  | nan
  | ninf
  | inf
  | val (x : K)
deriving DecidableEq, Repr

namespace Dbl

variable {K : Type} [Field K] [LinearOrder K] [IsStrictOrderedRing K]

/-- `a < b` of IEEE 754. -/
def lt : Dbl K → Dbl K → Bool
  | .val a, .val b => decide (a < b)
  | .val _, .inf => true
  | .ninf, .val _ => true
  | .ninf, .inf => true
  | _, _ => false

/-- `a <= b` of IEEE 754. -/
def le : Dbl K → Dbl K → Bool
  | .val a, .val b => decide (a ≤ b)
  | .val _, .inf => true
  | .ninf, .val _ => true
  | .ninf, .inf => true
  | .inf, .inf => true
  | .ninf, .ninf => true
  | _, _ => false

/-- `a + b` of IEEE 754. -/
def add : Dbl K → Dbl K → Dbl K
  | .val a, .val b => .val (a + b)
  | .nan, _ => .nan
  | _, .nan => .nan
  | .inf, .ninf => .nan
  | .ninf, .inf => .nan
  | .inf, _ => .inf
  | _, .inf => .inf
  | .ninf, _ => .ninf
  | _, .ninf => .ninf

/-- `a / b` of IEEE 754 (a zero divisor counts as positive). -/
def div : Dbl K → Dbl K → Dbl K
  | .nan, _ => .nan
  | _, .nan => .nan
  | .val a, .val b => if b = 0 then (if a = 0 then .nan else if a > 0 then .inf else .ninf) else .val (a / b)
  | .val _, .inf => .val 0
  | .val _, .ninf => .val 0
  | .inf, .val b => if b < 0 then .ninf else .inf
  | .ninf, .val b => if b < 0 then .inf else .ninf
  | _, _ => .nan

/-- The number zero. -/
def zero : Dbl K := .val 0

/-- Finite. -/
def Finite : Dbl K → Prop
  | .val _ => True
  | _ => False

theorem le_zero_iff (v : Dbl K) : le v zero = false ↔ v = .nan ∨ v = .inf ∨ ∃ x, 0 < x ∧ v = .val x := by
  cases v <;> simp [le, zero]

theorem lt_zero_iff (v : Dbl K) : lt v zero = false ↔ v = .nan ∨ v = .inf ∨ ∃ x, 0 ≤ x ∧ v = .val x := by
  cases v <;> simp [lt, zero]

/-! ## Layers, detectors and materials -/

section setters

/-- fisx_material.cpp:63-93 with `double` arguments. -/
def initMaterial (m : Material (Dbl K)) (name : String) (density thickness : Dbl K) (comment : String) :
    Outcome Unit × Material (Dbl K) :=
  if name.length < 1 then (.throw .invalidArgument, m)
  else if le density zero then (.throw .invalidArgument, m)
  else if le thickness zero then (.throw .invalidArgument, m)
  else (.ok (), { m with name := name, defaultDensity := density, defaultThickness := thickness,
                         comment := comment, initialized := true })

/-- fisx_layer.cpp:47-54 with a `double` argument. -/
def setDensity (l : Layer (Dbl K)) (v : Dbl K) : Outcome Unit × Layer (Dbl K) :=
  if le v zero then (.throw .invalidArgument, l) else (.ok (), { l with density := v })

/-- fisx_layer.cpp:56-63 with a `double` argument. -/
def setThickness (l : Layer (Dbl K)) (v : Dbl K) : Outcome Unit × Layer (Dbl K) :=
  if le v zero then (.throw .invalidArgument, l) else (.ok (), { l with thickness := v })

/-- fisx_layer.cpp:71-83 with `double`s in the layer and the material. -/
def setMaterial (l : Layer (Dbl K)) (m : Material (Dbl K)) : Layer (Dbl K) :=
  { l with
    material := m
    density := if lt l.density zero then m.defaultDensity else l.density
    thickness := if le l.thickness zero then m.defaultThickness else l.thickness
    hasMaterial := true }

/-- One call of the API of a layer (fisx_layer.h:53-55, 117-118). -/
def stepLayer (l : Layer (Dbl K)) : Layer.Op (Dbl K) → Outcome Unit × Layer (Dbl K)
  | .setDensity v => setDensity l v
  | .setThickness v => setThickness l v
  | .setMaterialName n => (.ok (), { l with materialName := n, hasMaterial := false })
  | .setMaterial m => (.ok (), setMaterial l m)

/-- A history of calls. -/
def runLayer (l : Layer (Dbl K)) (ops : List (Layer.Op (Dbl K))) : Layer (Dbl K) := ops.foldl (fun l op => (stepLayer l op).2) l

/-- fisx_detector.cpp:100-107 with a `double` argument. -/
def setDiameter {R : Type} (d : Detector (Dbl K) R) (v : Dbl K) : Outcome Unit × Detector (Dbl K) R :=
  if lt v zero then (.throw .invalidArgument, d) else (.ok (), { d with diameter := v })

/-- fisx_detector.cpp:109-116 with a `double` argument. -/
def setDistance {R : Type} (d : Detector (Dbl K) R) (v : Dbl K) : Outcome Unit × Detector (Dbl K) R :=
  if le v zero then (.throw .invalidArgument, d) else (.ok (), { d with distance := v })

/-- A material of numbers as a material of `double`s. -/
def ofMaterial (m : Material K) : Material (Dbl K) :=
  { name := m.name, initialized := m.initialized, composition := m.composition.map (fun e => (e.1, .val e.2)),
    defaultDensity := .val m.defaultDensity, defaultThickness := .val m.defaultThickness, comment := m.comment }

/-- A layer of numbers as a layer of `double`s. -/
def ofLayer (l : Layer K) : Layer (Dbl K) :=
  { name := l.name, materialName := l.materialName, hasMaterial := l.hasMaterial, material := ofMaterial l.material,
    funnyFactor := .val l.funnyFactor, density := .val l.density, thickness := .val l.thickness }

/-- A call with numbers as a call with `double`s. -/
def ofOp : Layer.Op K → Layer.Op (Dbl K)
  | .setDensity v => .setDensity (.val v)
  | .setThickness v => .setThickness (.val v)
  | .setMaterialName n => .setMaterialName n
  | .setMaterial m => .setMaterial (ofMaterial m)

/-- **C179** Exactly which values are accepted: the positive numbers (for the diameter also 0), and plus infinity and NaN as well. What
is accepted is stored, what is not changes nothing. -/
theorem C179_accepted {R : Type} (l : Layer (Dbl K)) (d : Detector (Dbl K) R) (v : Dbl K) :
    (v = .nan ∨ v = .inf ∨ ∃ x, 0 < x ∧ v = .val x) ∧ setDensity l v = (.ok (), { l with density := v }) ∧
      setThickness l v = (.ok (), { l with thickness := v }) ∧ setDistance d v = (.ok (), { d with distance := v }) ∧
      setDiameter d v = (.ok (), { d with diameter := v }) ∨
    (v = .ninf ∨ ∃ x, x ≤ 0 ∧ v = .val x) ∧ setDensity l v = (.throw .invalidArgument, l) ∧
      setThickness l v = (.throw .invalidArgument, l) ∧ setDistance d v = (.throw .invalidArgument, d) ∧
      setDiameter d v = (if v = .val 0 then (.ok (), { d with diameter := v }) else (.throw .invalidArgument, d)) := by
  unfold setDensity setThickness setDistance setDiameter
  cases v with
  | nan => simp [le, lt, zero]
  | inf => simp [le, lt, zero]
  | ninf => simp [le, lt, zero]
  | val x =>
    simp only [le, lt, zero, reduceCtorEq, false_or, decide_eq_true_eq, Dbl.val.injEq]
    rcases lt_trichotomy x 0 with h | h | h
    · right
      exact ⟨⟨x, h.le, rfl⟩, by simp [h.le], by simp [h.le], by simp [h.le], by simp [h, h.ne]⟩
    · right
      subst h
      exact ⟨⟨0, le_refl _, rfl⟩, by simp, by simp, by simp, by simp⟩
    · left
      exact ⟨⟨x, h, rfl⟩, by simp [not_le.2 h], by simp [not_le.2 h], by simp [not_le.2 h], by simp [not_lt.2 h.le]⟩

/-- **C179** (violated) NaN is accepted as density, thickness, distance and diameter, by every layer and detector, and for the default
density and thickness of a material; and a material given afterwards does not replace it. -/
theorem C179_nan_violated {R : Type} (l : Layer (Dbl K)) (d : Detector (Dbl K) R) (m : Material (Dbl K)) (name comment : String)
    (hn : 0 < name.length) :
    setDensity l .nan = (.ok (), { l with density := .nan }) ∧ setThickness l .nan = (.ok (), { l with thickness := .nan }) ∧
    setDistance d .nan = (.ok (), { d with distance := .nan }) ∧ setDiameter d .nan = (.ok (), { d with diameter := .nan }) ∧
    (initMaterial m name .nan .nan comment).1 = .ok () ∧ (initMaterial m name .nan .nan comment).2.defaultDensity = .nan ∧
    (setMaterial { l with density := .nan, thickness := .nan } m).density = .nan ∧
    (setMaterial { l with density := .nan, thickness := .nan } m).thickness = .nan := by
  refine ⟨rfl, rfl, rfl, rfl, ?_, ?_, rfl, rfl⟩
  · unfold initMaterial
    rw [if_neg (by omega)]
    rfl
  · unfold initMaterial
    rw [if_neg (by omega)]
    rfl

/-- **C179** (what holds) With finite arguments a layer behaves, call by call and for every history, as in the model over numbers; its
density and thickness stay finite. -/
theorem C179_numbers_partial (l : Layer K) (ops : List (Layer.Op K)) :
    runLayer (ofLayer l) (ops.map ofOp) = ofLayer (l.run ops) ∧
    ∀ op, stepLayer (ofLayer l) (ofOp op) = ((l.step op).1, ofLayer (l.step op).2) := by
  have hstep : ∀ (l : Layer K) op, stepLayer (ofLayer l) (ofOp op) = ((l.step op).1, ofLayer (l.step op).2) := by
    intro l op
    cases op with
    | setDensity v =>
      simp only [stepLayer, ofOp, setDensity, Layer.step, Layer.setDensity, le, zero, decide_eq_true_eq]
      split <;> rfl
    | setThickness v =>
      simp only [stepLayer, ofOp, setThickness, Layer.step, Layer.setThickness, le, zero, decide_eq_true_eq]
      split <;> rfl
    | setMaterialName n => rfl
    | setMaterial m =>
      simp only [stepLayer, ofOp, setMaterial, Layer.step, Layer.setMaterial, ofLayer, le, lt, zero, decide_eq_true_eq]
      congr 2
      · split <;> rfl
      · split <;> rfl
  refine ⟨?_, hstep l⟩
  unfold runLayer Layer.run
  induction ops generalizing l with
  | nil => rfl
  | cons op ops ih =>
    rw [List.map_cons, List.foldl_cons, List.foldl_cons, hstep]
    exact ih _

/-- **C179** (what holds) The same for the detector. -/
theorem C179_detector_partial {R : Type} (d : Detector (Dbl K) R) (x : K) :
    (setDistance d (.val x)).1 = (if x ≤ 0 then .throw .invalidArgument else .ok ()) ∧
    (setDiameter d (.val x)).1 = (if x < 0 then .throw .invalidArgument else .ok ()) ∧
    (d.distance.Finite → (setDistance d (.val x)).2.distance.Finite) ∧
    (d.diameter.Finite → (setDiameter d (.val x)).2.diameter.Finite) := by
  unfold setDistance setDiameter
  simp only [le, lt, zero, decide_eq_true_eq]
  refine ⟨by split <;> rfl, by split <;> rfl, fun h => ?_, fun h => ?_⟩
  · split
    · exact h
    · trivial
  · split
    · exact h
    · trivial

end setters

/-! ## Compositions -/

section composition

/-- fisx_material.cpp:128-137 with `double`s. -/
def checkAmounts (amounts : List (Dbl K)) (total : Dbl K) : Outcome (Dbl K) :=
  match amounts with
  | [] => .ok total
  | a :: rest => if le a zero then .throw .invalidArgument else checkAmounts rest (add total a)

/-- fisx_material.cpp:141-144 with `double`s. -/
def fillComposition (pairs : List (String × Dbl K)) (total : Dbl K) (c : SMap String (Dbl K)) : SMap String (Dbl K) :=
  match pairs with
  | [] => c
  | (n, a) :: rest => fillComposition rest total (c.insert n (div a total))

/-- fisx_material.cpp:110-146 with `double`s. -/
def setComposition (m : Material (Dbl K)) (names : List String) (amounts : List (Dbl K)) :
    Outcome Unit × Material (Dbl K) :=
  if names.length ≠ amounts.length then (.throw .invalidArgument, m)
  else
    match checkAmounts amounts zero with
    | .ok total => (.ok (), { m with composition := fillComposition (names.zip amounts) total [] })
    | .throw e => (.throw e, m)
    | .ub u => (.ub u, m)
    | .diverge => (.diverge, m)

theorem checkAmounts_ok : ∀ (amounts : List (Dbl K)) (t : Dbl K), (∀ a ∈ amounts, le a zero = false) →
    checkAmounts amounts t = .ok (amounts.foldl add t)
  | [], _, _ => rfl
  | a :: rest, t, h => by
    unfold checkAmounts
    rw [h a (List.mem_cons_self ..)]
    exact checkAmounts_ok rest _ (fun x hx => h x (List.mem_cons_of_mem _ hx))

theorem foldl_nan : ∀ (l : List (Dbl K)), l.foldl add .nan = .nan
  | [] => rfl
  | a :: l => by
    rw [List.foldl_cons]
    exact foldl_nan l

theorem add_nan (t : Dbl K) : add t .nan = .nan := by cases t <;> rfl

theorem foldl_mem_nan : ∀ (l : List (Dbl K)) (t : Dbl K), .nan ∈ l → l.foldl add t = .nan
  | a :: l, t, h => by
    rw [List.foldl_cons]
    rcases List.mem_cons.1 h with h | h
    · rw [← h, add_nan, foldl_nan]
    · exact foldl_mem_nan l _ h

theorem foldl_inf : ∀ (l : List (Dbl K)), (∀ a ∈ l, a = .inf ∨ ∃ x, a = .val x) → l.foldl add .inf = .inf
  | [], _ => rfl
  | a :: l, h => by
    rw [List.foldl_cons]
    rcases h a (List.mem_cons_self ..) with rfl | ⟨x, rfl⟩ <;>
      exact foldl_inf l (fun y hy => h y (List.mem_cons_of_mem _ hy))

theorem foldl_mem_inf : ∀ (l : List (Dbl K)) (x : K), (∀ a ∈ l, a = .inf ∨ ∃ x, a = .val x) → .inf ∈ l →
    l.foldl add (.val x) = .inf
  | a :: l, x, h, hm => by
    rw [List.foldl_cons]
    have hl : ∀ y ∈ l, y = .inf ∨ ∃ x, y = .val x := fun y hy => h y (List.mem_cons_of_mem _ hy)
    rcases List.mem_cons.1 hm with rfl | hm'
    · exact foldl_inf l hl
    · rcases h a (List.mem_cons_self ..) with rfl | ⟨y, rfl⟩
      · exact foldl_inf l hl
      · exact foldl_mem_inf l _ hl hm'

theorem foldl_val : ∀ (l : List K) (x : K), (l.map Dbl.val).foldl add (.val x) = .val (x + l.sum)
  | [], x => by simp
  | a :: l, x => by
    rw [List.map_cons, List.foldl_cons, List.sum_cons, ← add_assoc]
    exact foldl_val l _

theorem div_nan (a : Dbl K) : div a .nan = .nan := by cases a <;> rfl

theorem fill_mem {total : Dbl K} : ∀ (pairs : List (String × Dbl K)) (c : SMap String (Dbl K)) (e : String × Dbl K),
    e ∈ fillComposition pairs total c → e ∈ c ∨ ∃ a, (e.1, a) ∈ pairs ∧ e.2 = div a total
  | [], _, e, h => Or.inl h
  | (n, a) :: rest, c, e, h => by
    rcases fill_mem rest _ e h with h | ⟨b, hb, he⟩
    · rcases SMap.mem_insert h with h | h
      · right
        refine ⟨a, ?_, ?_⟩
        · rw [h]
          exact List.mem_cons_self ..
        · rw [h]
      · exact Or.inl h
    · exact Or.inr ⟨b, List.mem_cons_of_mem _ hb, he⟩

theorem fill_has {total : Dbl K} : ∀ (pairs : List (String × Dbl K)) (c : SMap String (Dbl K)) (n : String),
    (n ∈ pairs.map Prod.fst ∨ (c.find? n).isSome) → ((fillComposition pairs total c).find? n).isSome
  | [], _, n, h => by
    rcases h with h | h
    · cases h
    · exact h
  | (k, a) :: rest, c, n, h => by
    refine fill_has rest _ n ?_
    rw [SMap.find?_insert]
    rcases h with h | h
    · rw [List.map_cons, List.mem_cons] at h
      rcases h with h | h
      · right
        rw [if_pos h.symm]
        rfl
      · exact Or.inl h
    · right
      split
      · rfl
      · exact h

/-- **C180** (violated) One NaN among the amounts is accepted and makes all fractions of the material NaN. -/
theorem C180_nan_violated (m : Material (Dbl K)) (names : List String) (amounts : List (Dbl K)) (hlen : names.length = amounts.length)
    (hpos : ∀ a ∈ amounts, le a zero = false) (hnan : .nan ∈ amounts) :
    (setComposition m names amounts).1 = .ok () ∧ (∀ e ∈ (setComposition m names amounts).2.composition, e.2 = .nan) ∧
    ∀ n ∈ names, ((setComposition m names amounts).2.composition.find? n).isSome := by
  unfold setComposition
  rw [if_neg (by simpa using hlen), checkAmounts_ok _ _ hpos, foldl_mem_nan _ _ hnan]
  refine ⟨rfl, fun e he => ?_, fun n hn => fill_has _ _ n (Or.inl (by rw [List.map_fst_zip hlen.le]; exact hn))⟩
  rcases fill_mem _ _ e he with h | ⟨a, -, h⟩
  · cases h
  · rw [h, div_nan]

/-- **C180** (violated) An infinite amount is accepted: its substance gets the fraction NaN, the others the fraction 0. -/
theorem C180_infinite_violated (m : Material (Dbl K)) (names : List String) (amounts : List (Dbl K))
    (hlen : names.length = amounts.length) (hpos : ∀ a ∈ amounts, a = .inf ∨ ∃ x, 0 < x ∧ a = .val x) (hinf : .inf ∈ amounts) :
    (setComposition m names amounts).1 = .ok () ∧
    (∀ e ∈ (setComposition m names amounts).2.composition, ∃ a, (e.1, a) ∈ names.zip amounts ∧
      (a = .inf ∧ e.2 = .nan ∨ a ≠ .inf ∧ e.2 = .val 0)) ∧
    ∀ n ∈ names, ((setComposition m names amounts).2.composition.find? n).isSome := by
  unfold setComposition
  rw [if_neg (by simpa using hlen), checkAmounts_ok _ _ (fun a ha => (le_zero_iff a).2 (Or.inr (hpos a ha))), zero,
    foldl_mem_inf _ _ (fun a ha => (hpos a ha).imp id (fun ⟨x, _, h⟩ => ⟨x, h⟩)) hinf]
  refine ⟨rfl, fun e he => ?_, fun n hn => fill_has _ _ n (Or.inl (by rw [List.map_fst_zip hlen.le]; exact hn))⟩
  rcases fill_mem _ _ e he with h | ⟨a, ha, h⟩
  · cases h
  · refine ⟨a, ha, ?_⟩
    rw [h]
    rcases hpos a (List.of_mem_zip ha).2 with rfl | ⟨x, -, rfl⟩
    · exact Or.inl ⟨rfl, rfl⟩
    · exact Or.inr ⟨by simp, rfl⟩

theorem checkAmounts_val : ∀ (amounts : List K) (t : K), checkAmounts (amounts.map Dbl.val) (.val t) =
    (Material.checkAmounts amounts t).bind (fun x => .ok (.val x))
  | [], _ => rfl
  | a :: rest, t => by
    rw [List.map_cons]
    unfold checkAmounts Material.checkAmounts
    simp only [le, zero, decide_eq_true_eq]
    split
    · rfl
    · exact checkAmounts_val rest _

theorem insert_val (c : SMap String K) (n : String) (x : K) :
    SMap.insert (c.map (fun e => (e.1, Dbl.val e.2))) n (.val x) = (SMap.insert c n x).map (fun e => (e.1, Dbl.val e.2)) := by
  induction c with
  | nil => rfl
  | cons e c ih =>
    rw [List.map_cons]
    unfold SMap.insert
    split
    · rfl
    · split
      · rfl
      · rw [ih]
        rfl

theorem fill_val {t : K} (ht : t ≠ 0) : ∀ (pairs : List (String × K)) (c : SMap String K),
    fillComposition (pairs.map (fun e => (e.1, Dbl.val e.2))) (.val t) (c.map (fun e => (e.1, Dbl.val e.2))) =
      (Material.fillComposition pairs t c).map (fun e => (e.1, Dbl.val e.2))
  | [], _ => rfl
  | (n, a) :: rest, c => by
    rw [List.map_cons]
    unfold fillComposition Material.fillComposition
    dsimp only
    rw [show div (.val a) (.val t) = (.val (a / t) : Dbl K) by simp [div, ht], insert_val]
    exact fill_val ht rest _

/-- **C180** (what holds) With finite amounts `setComposition` is the one of the model over numbers (property C01), so the fractions are
finite. -/
theorem C180_numbers_partial (m : Material K) (names : List String) (amounts : List K) :
    setComposition (ofMaterial m) names (amounts.map Dbl.val) =
      ((m.setComposition names amounts).1, ofMaterial (m.setComposition names amounts).2) := by
  unfold setComposition Material.setComposition
  rw [List.length_map]
  split
  · rfl
  · rename_i hlen
    rw [zero, checkAmounts_val]
    by_cases hp : ∀ a ∈ amounts, 0 < a
    · have hc : ∀ (l : List K) (t : K), (∀ a ∈ l, 0 < a) → Material.checkAmounts l t = .ok (t + l.sum) := by
        intro l
        induction l with
        | nil => intro t _; simp [Material.checkAmounts]
        | cons a l ih =>
          intro t h
          unfold Material.checkAmounts
          rw [if_neg (not_le.2 (h a (List.mem_cons_self ..))), ih _ (fun x hx => h x (List.mem_cons_of_mem _ hx)), List.sum_cons, add_assoc]
      rw [hc _ _ hp, zero_add]
      cases amounts with
      | nil =>
        cases names with
        | nil => rfl
        | cons _ _ => simp at hlen
      | cons a rest =>
        have ht : (a :: rest).sum ≠ 0 := by
          rw [List.sum_cons]
          have h1 := hp a (List.mem_cons_self ..)
          have h2 : 0 ≤ rest.sum := List.sum_nonneg (fun x hx => (hp x (List.mem_cons_of_mem _ hx)).le)
          linarith
        have hz : names.zip ((a :: rest).map Dbl.val) = (names.zip (a :: rest)).map (fun e => (e.1, Dbl.val e.2)) := by
          rw [List.zip_map_right]
          rfl
        show (Outcome.ok (), _) = (Outcome.ok (), _)
        rw [hz]
        have := fill_val ht (names.zip (a :: rest)) []
        simp only [List.map_nil] at this
        rw [this]
        rfl
    · obtain ⟨x, hx⟩ : ∃ x, Material.checkAmounts amounts 0 = .throw x := by
        have : ∀ (l : List K) (t : K), ¬ (∀ a ∈ l, 0 < a) → ∃ x, Material.checkAmounts l t = .throw x := by
          intro l
          induction l with
          | nil => intro t h; simp at h
          | cons a l ih =>
            intro t h
            unfold Material.checkAmounts
            split
            · exact ⟨_, rfl⟩
            · rename_i ha
              refine ih _ (fun hh => h (fun y hy => ?_))
              rcases List.mem_cons.1 hy with rfl | hy
              · exact not_le.1 ha
              · exact hh y hy
        exact this _ _ hp
      rw [hx]
      rfl

/-- The hypotheses of `C180_nan_violated` and `C180_infinite_violated` are met by two substances. -/
example (m : Material (Dbl ℚ)) :
    (setComposition m ["Fe", "Cr"] [.val 1, .nan]).2.composition = [("Cr", .nan), ("Fe", .nan)] ∧
    (setComposition m ["Fe", "Cr"] [.val 1, .inf]).2.composition = [("Cr", .nan), ("Fe", .val 0)] ∧
    (∀ a ∈ [Dbl.val (1 : ℚ), .nan], le a zero = false) ∧ (∀ a ∈ [Dbl.val (1 : ℚ), .inf], a = .inf ∨ ∃ x, 0 < x ∧ a = .val x) := by
  refine ⟨by rfl, by rfl, by decide +kernel, ?_⟩
  simp

end composition

/-! ## Beams -/

section beam

/-- fisx_beam.h:52-55, the comparison of rays. -/
def rayLt (a b : Ray (Dbl K)) : Bool := lt a.energy b.energy

/-- Neither is before the other. -/
def Tied (a b : Ray (Dbl K)) : Prop := rayLt a b = false ∧ rayLt b a = false

/-- What the standard asks of the comparison given to `std::sort` ([alg.sorting]): being tied is transitive on the range. (Its other
requirements are met by all rays: `rayLt_irrefl`, `rayLt_trans`.) -/
def SortDefined (rays : List (Ray (Dbl K))) : Prop := ∀ a ∈ rays, ∀ b ∈ rays, ∀ c ∈ rays, Tied a b → Tied b c → Tied a c

theorem lt_irrefl' (a : Dbl K) : lt a a = false := by cases a <;> simp [lt]

theorem lt_trans' {a b c : Dbl K} (h1 : lt a b = true) (h2 : lt b c = true) : lt a c = true := by
  cases a <;> cases b <;> cases c <;> simp [lt] at *
  exact lt_trans h1 h2

theorem rayLt_irrefl (a : Ray (Dbl K)) : rayLt a a = false := lt_irrefl' _

theorem rayLt_trans {a b c : Ray (Dbl K)} (h1 : rayLt a b = true) (h2 : rayLt b c = true) : rayLt a c = true := lt_trans' h1 h2

/-- fisx_beam.cpp:198-208: the weights after normalisation. -/
def scaled (rays : List (Ray (Dbl K))) : List (Ray (Dbl K)) :=
  let total := (rays.map Ray.weight).foldl add zero
  if lt zero total then rays.map (fun r => { r with weight := div r.weight total }) else rays

open Classical in
/-- fisx_beam.cpp:189-211, `normalizeBeam`, which all the setters of a beam call; `none`: undefined behaviour of `std::sort`. -/
noncomputable def normalizeBeam (sort : List (Ray (Dbl K)) → List (Ray (Dbl K))) (rays : List (Ray (Dbl K))) : Option (Beam (Dbl K)) :=
  if SortDefined (scaled rays) then some { normalized := true, rays := sort (scaled rays) } else none

/-- What `std::sort` guarantees when it is defined. -/
def IsSort (sort : List (Ray (Dbl K)) → List (Ray (Dbl K))) : Prop :=
  ∀ l, SortDefined l → (sort l).Perm l ∧ (sort l).Pairwise (fun a b => rayLt b a = false)

theorem tied_iff {a b : Dbl K} : (lt a b = false ∧ lt b a = false) ↔ a = .nan ∨ b = .nan ∨ a = b := by
  cases a <;> cases b <;> simp [lt]
  constructor
  · rintro ⟨h1, h2⟩
    exact le_antisymm h2 h1
  · rintro rfl
    exact ⟨le_refl _, le_refl _⟩

theorem scaled_energy (rays : List (Ray (Dbl K))) : (scaled rays).map Ray.energy = rays.map Ray.energy := by
  unfold scaled
  dsimp only
  split
  · rw [List.map_map]
    rfl
  · rfl

theorem sortDefined_iff (rays : List (Ray (Dbl K))) : ¬ SortDefined rays ↔
    .nan ∈ rays.map Ray.energy ∧ ∃ x ∈ rays.map Ray.energy, ∃ y ∈ rays.map Ray.energy, x ≠ .nan ∧ y ≠ .nan ∧ x ≠ y := by
  constructor
  · intro h
    unfold SortDefined at h
    push Not at h
    obtain ⟨a, ha, b, hb, c, hc, h1, h2, h3⟩ := h
    rw [Tied, rayLt, rayLt, tied_iff] at h1 h2 h3
    push Not at h3
    have hbn : b.energy = .nan := by
      rcases h1 with h1 | h1 | h1
      · exact absurd h1 h3.1
      · exact h1
      · rcases h2 with h2 | h2 | h2
        · exact h2
        · exact absurd h2 h3.2.1
        · exact absurd (h1.trans h2) h3.2.2
    exact ⟨List.mem_map.2 ⟨b, hb, hbn⟩, a.energy, List.mem_map_of_mem ha, c.energy, List.mem_map_of_mem hc, h3⟩
  · rintro ⟨hn, x, hx, y, hy, h1, h2, h3⟩ hs
    obtain ⟨b, hb, hbn⟩ := List.mem_map.1 hn
    obtain ⟨a, ha, rfl⟩ := List.mem_map.1 hx
    obtain ⟨c, hc, rfl⟩ := List.mem_map.1 hy
    have := hs a ha b hb c hc (tied_iff.2 (Or.inr (Or.inl hbn))) (tied_iff.2 (Or.inl hbn))
    rcases tied_iff.1 this with h | h | h
    · exact h1 h
    · exact h2 h
    · exact h3 h

/-- **C181** Setting a beam is undefined exactly when one energy is NaN and two others differ. -/
theorem C181_undefined_iff (sort : List (Ray (Dbl K)) → List (Ray (Dbl K))) (rays : List (Ray (Dbl K))) :
    normalizeBeam sort rays = none ↔
    .nan ∈ rays.map Ray.energy ∧ ∃ x ∈ rays.map Ray.energy, ∃ y ∈ rays.map Ray.energy, x ≠ .nan ∧ y ≠ .nan ∧ x ≠ y := by
  rw [← scaled_energy rays, ← sortDefined_iff]
  unfold normalizeBeam
  split
  · rename_i h
    simp [h]
  · rename_i h
    simp [h]

/-- **C181** (violated) A beam of three rays for which it is undefined. -/
theorem C181_nan_energy_violated (sort : List (Ray (Dbl ℚ)) → List (Ray (Dbl ℚ))) :
    normalizeBeam sort [⟨.val 10, .val 1, 1, .val 0⟩, ⟨.nan, .val 1, 1, .val 0⟩, ⟨.val 5, .val 1, 1, .val 0⟩] = none := by
  rw [C181_undefined_iff]
  refine ⟨by simp, .val 10, by simp, .val 5, by simp, by simp, by simp, by simp⟩

/-- **C181** (violated) With a NaN among the weights the beam is accepted, and its weights are stored as given, not normalised. -/
theorem C181_nan_weight_violated (sort : List (Ray (Dbl K)) → List (Ray (Dbl K))) (hsort : IsSort sort) (rays : List (Ray (Dbl K)))
    (hw : .nan ∈ rays.map Ray.weight) (he : .nan ∉ rays.map Ray.energy) :
    ∃ b, normalizeBeam sort rays = some b ∧ b.normalized = true ∧ b.rays.Perm rays := by
  have hs : scaled rays = rays := by
    unfold scaled
    dsimp only
    rw [foldl_mem_nan _ _ hw]
    rfl
  have hd : SortDefined rays := by
    by_contra hh
    exact he ((sortDefined_iff rays).1 hh).1
  refine ⟨{ normalized := true, rays := sort rays }, ?_, rfl, (hsort rays hd).1⟩
  unfold normalizeBeam
  rw [hs, if_pos hd]

/-- A ray of numbers. -/
def ofRay (r : Ray K) : Ray (Dbl K) :=
  { energy := .val r.energy, weight := .val r.weight, characteristic := r.characteristic, divergency := .val r.divergency }

/-- The number of a `double`, 0 when it has none. -/
def toNum : Dbl K → K
  | .val x => x
  | _ => 0

/-- The ray of the numbers. -/
def backRay (r : Ray (Dbl K)) : Ray K :=
  { energy := toNum r.energy, weight := toNum r.weight, characteristic := r.characteristic, divergency := toNum r.divergency }

/-- **C181** (what holds) With finite numbers setting a beam is defined and gives what the model over numbers gives (property C06): the
rays with their normalised weights, in ascending order of energy. -/
theorem C181_numbers_partial (sort : List (Ray (Dbl K)) → List (Ray (Dbl K))) (hsort : IsSort sort) (rays : List (Ray K)) :
    ∃ (s : List (Ray K) → List (Ray K)) (b : Beam (Dbl K)), normalizeBeam sort (rays.map ofRay) = some b ∧
      b.rays = (Beam.normalizeBeam s rays).rays.map ofRay ∧ b.normalized = (Beam.normalizeBeam s rays).normalized ∧
      (Beam.normalizeBeam s rays).rays.Perm (Beam.normalizeBeam id rays).rays ∧
      (Beam.normalizeBeam s rays).rays.Pairwise (fun a b => a.energy ≤ b.energy) := by
  have hsc : scaled (rays.map ofRay) = (Beam.normalizeBeam id rays).rays.map ofRay := by
    unfold scaled Beam.normalizeBeam
    have hm : (rays.map ofRay).map Ray.weight = (rays.map Ray.weight).map Dbl.val := by
      rw [List.map_map, List.map_map]
      rfl
    have ht : ((rays.map ofRay).map Ray.weight).foldl add zero = .val (Beam.totalWeight rays) := by
      rw [hm, zero, foldl_val, zero_add]
      rfl
    rw [ht]
    simp only [lt, zero, decide_eq_true_eq, gt_iff_lt, id]
    split
    · rename_i hpos
      rw [List.map_map, List.map_map]
      refine List.map_congr_left (fun r _ => ?_)
      simp [ofRay, div, hpos.ne']
    · rfl
  have hd : SortDefined ((Beam.normalizeBeam id rays).rays.map ofRay) := by
    by_contra hh
    obtain ⟨hn, -⟩ := (sortDefined_iff _).1 hh
    simp [ofRay] at hn
  obtain ⟨h1, h2⟩ := hsort _ hd
  obtain ⟨l, hl, hperm⟩ : ∃ l : List (Ray K), sort ((Beam.normalizeBeam id rays).rays.map ofRay) = l.map ofRay ∧
      l.Perm (Beam.normalizeBeam id rays).rays := by
    have hback : ∀ r : Ray K, backRay (ofRay r) = r := fun _ => rfl
    refine ⟨(sort ((Beam.normalizeBeam id rays).rays.map ofRay)).map backRay, ?_, ?_⟩
    · rw [List.map_map]
      conv_lhs => rw [← List.map_id (sort _)]
      refine List.map_congr_left (fun r hr => ?_)
      obtain ⟨r', -, rfl⟩ := List.mem_map.1 (h1.mem_iff.1 hr)
      rfl
    · have := h1.map backRay
      rw [List.map_map, show backRay ∘ ofRay = (id : Ray K → Ray K) from funext hback, List.map_id] at this
      exact this
  refine ⟨fun _ => l, { normalized := true, rays := sort (scaled (rays.map ofRay)) }, ?_, ?_, rfl, hperm, ?_⟩
  · unfold normalizeBeam
    rw [hsc, if_pos hd]
  · show sort (scaled (rays.map ofRay)) = l.map ofRay
    rw [hsc, hl]
  · show l.Pairwise _
    rw [hl, List.pairwise_map] at h2
    refine h2.imp (fun {a b} h => ?_)
    simpa [rayLt, ofRay, lt] using h

/-- The hypotheses of `C181_nan_weight_violated` are met by two rays. -/
example : Dbl.nan ∈ ([⟨.val 10, .nan, 1, .val 0⟩, ⟨.val 5, .val 1, 1, .val 0⟩] : List (Ray (Dbl ℚ))).map Ray.weight ∧
    Dbl.nan ∉ ([⟨.val 10, .nan, 1, .val 0⟩, ⟨.val 5, .val 1, 1, .val 0⟩] : List (Ray (Dbl ℚ))).map Ray.energy := by
  decide +kernel

end beam

/-! ## Transmission tables -/

section table

/-- fisx_transmissiontable.cpp:70-93 and 148-170 with `double`s. -/
def checkRows (rows : List (Dbl K × Dbl K)) (maxEnergy : Dbl K) : Bool :=
  match rows with
  | [] => true
  | (e, tr) :: rest =>
    if lt e zero then false
    else if lt e maxEnergy then false
    else if lt tr zero then false
    else checkRows rest e

/-- A row of numbers. -/
def ofRow (r : K × K) : Dbl K × Dbl K := (.val r.1, .val r.2)

/-- **C182** (violated) A row with a NaN energy passes the checks wherever the rows before and after it do, and after it the energies may
start again below those before: the rows are not in ascending order. -/
theorem C182_nan_energy_violated (before after : List (Dbl K × Dbl K)) (t m : Dbl K) (ht : lt t zero = false)
    (hb : checkRows before m = true) (ha : checkRows after .nan = true) : checkRows (before ++ (.nan, t) :: after) m = true := by
  induction before generalizing m with
  | nil =>
    show checkRows ((.nan, t) :: after) m = true
    unfold checkRows
    simp only [show lt (.nan : Dbl K) zero = false from rfl, show lt .nan m = false from rfl, ht, Bool.false_eq_true, if_false]
    exact ha
  | cons r rest ih =>
    obtain ⟨e, tr⟩ := r
    rw [List.cons_append]
    unfold checkRows at hb ⊢
    split at hb
    · cases hb
    · rename_i h1
      rw [if_neg h1]
      split at hb
      · cases hb
      · rename_i h2
        rw [if_neg h2]
        split at hb
        · cases hb
        · rename_i h3
          rw [if_neg h3]
          exact ih _ hb

/-- **C182** (violated) The energies 10, NaN, 5 and the transmission NaN are accepted. -/
theorem C182_accepted_violated :
    checkRows [(.val (10 : ℚ), .val (1 / 2)), (.nan, .val (1 / 2)), (.val 5, .nan)] (.val (-1)) = true ∧
    checkRows [(.val (10 : ℚ), .val (1 / 2)), (.val 5, .val (1 / 2))] (.val (-1)) = false := by
  decide +kernel

/-- **C182** (what holds) Rows of numbers are checked as in the model over numbers (property C04). -/
theorem C182_numbers_partial (rows : List (K × K)) (m : K) :
    checkRows (rows.map ofRow) (.val m) = TransmissionTable.checkRows rows m := by
  induction rows generalizing m with
  | nil => rfl
  | cons r rest ih =>
    obtain ⟨e, t⟩ := r
    rw [List.map_cons]
    unfold checkRows TransmissionTable.checkRows
    simp only [ofRow, lt, zero, decide_eq_true_eq]
    split
    · rfl
    · split
      · rfl
      · split
        · rfl
        · exact ih e

/-- **C182** (what holds) The energies and transmissions of rows that pass the checks are never negative numbers. -/
theorem C182_not_negative_partial (rows : List (Dbl K × Dbl K)) (m : Dbl K) (h : checkRows rows m = true) :
    ∀ r ∈ rows, lt r.1 zero = false ∧ lt r.2 zero = false := by
  induction rows generalizing m with
  | nil => simp
  | cons r rest ih =>
    obtain ⟨e, t⟩ := r
    unfold checkRows at h
    split at h
    · cases h
    · rename_i h1
      split at h
      · cases h
      · split at h
        · cases h
        · rename_i h3
          intro r hr
          rcases List.mem_cons.1 hr with rfl | hr
          · exact ⟨by simpa using h1, by simpa using h3⟩
          · exact ih e h r hr

end table

end Dbl
end Fisx
