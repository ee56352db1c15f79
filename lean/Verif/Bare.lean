import Verif.MultilayerTertiary
import Verif.Split

/-!
# C162: what is between the sample and the detector only scales what is detected

The calculation with the detection left out of the entries: everything else does not depend on it.
-/

set_option linter.unusedSectionVars false

namespace Fisx

namespace SMap

variable {κ ν μ : Type} [LinearOrder κ]

/-- A function applied to all values. -/
def onValues (f : ν → μ) (m : SMap κ ν) : SMap κ μ := List.map (fun e => (e.1, f e.2)) m

theorem onValues_nil (f : ν → μ) : onValues f ([] : SMap κ ν) = [] := rfl

theorem find?_onValues (f : ν → μ) (m : SMap κ ν) (k : κ) : (onValues f m).find? k = (m.find? k).map f := by
  induction m with
  | nil => rfl
  | cons e m ih =>
    obtain ⟨k', v⟩ := e
    show find? ((k', f v) :: onValues f m) k = _
    unfold find?
    split
    · rfl
    · exact ih

theorem insert_onValues (f : ν → μ) (m : SMap κ ν) (k : κ) (v : ν) :
    onValues f (m.insert k v) = (onValues f m).insert k (f v) := by
  induction m with
  | nil => rfl
  | cons e m ih =>
    obtain ⟨k', v'⟩ := e
    show _ = insert ((k', f v') :: onValues f m) k (f v)
    unfold insert
    split
    · rfl
    · split
      · rfl
      · show (k', f v') :: onValues f (insert m k v) = _
        rw [ih]

theorem mem_onValues (f : ν → μ) (m : SMap κ ν) (k : κ) : (onValues f m).mem k = m.mem k := by
  unfold mem
  rw [find?_onValues]
  cases m.find? k <;> rfl

theorem length_onValues (f : ν → μ) (m : SMap κ ν) : (onValues f m).length = m.length := by
  unfold onValues
  rw [List.length_map]

end SMap

namespace Multilayer

open Xrf (Request)

variable {K : Type} [Field K] [LinearOrder K] [IsStrictOrderedRing K]

/-- An entry without what concerns the detection. -/
def Leaf.bare (l : Leaf K) : Leaf K := { l with efficiency := 0, rate := 0 }

/-- The result without what concerns the detection. -/
def bare (r : Result K) : Result K := SMap.onValues (SMap.onValues (SMap.onValues Leaf.bare)) r

/-- The working values without what concerns the detection. -/
def Tmp.bare (p : Tmp K) : Tmp K := { p with efficiency := 0, rate := 0 }

/-- Two lists of working values that differ in the detection only. -/
def SameLines (a b : List (Str × Tmp K)) : Prop := SMap.onValues Tmp.bare a = SMap.onValues Tmp.bare b

theorem linesOf_bare (r : Result K) (k : String) (i : Nat) : linesOf (bare r) k i = SMap.onValues Leaf.bare (linesOf r k i) := by
  unfold linesOf bare
  rw [SMap.find?_onValues]
  cases SMap.find? r k with
  | none => rfl
  | some m =>
    simp only [Option.map_some, Option.getD_some]
    rw [SMap.find?_onValues]
    cases SMap.find? m i <;> rfl

theorem leaf_bare (r : Result K) (k : String) (i : Nat) (t : Str) : leaf? (bare r) k i t = (leaf? r k i t).map Leaf.bare := by
  unfold leaf?
  rw [linesOf_bare, SMap.find?_onValues]

theorem put_bare (r : Result K) (k : String) (i : Nat) (t : Str) (v : Leaf K) :
    bare (put r k i t v) = put (bare r) k i t v.bare := by
  unfold put
  rw [linesOf_bare]
  unfold bare
  rw [SMap.insert_onValues, SMap.insert_onValues, SMap.insert_onValues, SMap.find?_onValues]
  cases SMap.find? r k <;> rfl

theorem bare_leaf_eq {r r' : Result K} (h : bare r = bare r') (k : String) (i : Nat) (t : Str) :
    (leaf? r k i t).map Leaf.bare = (leaf? r' k i t).map Leaf.bare := by
  rw [← leaf_bare, ← leaf_bare, h]

/-- A layer without its geometric efficiency. -/
abbrev LayerData.still (l : LayerData K) : LayerData K := { l with geometric := 0 }

/-- The calculation without anything between the sample and the detector. -/
def still (env : Env K) : Env K :=
  { env with layers := env.layers.map LayerData.still, transmission := fun _ _ => .ok 1, attenuators := [], tables := [],
             intrinsic := fun _ => .ok 1 }

section loops

variable (env : Env K)

theorem incident_still (e : K) : ∀ (ls : List (LayerData K)) (i : Nat) (acc : K),
    incident (still env) e i (ls.map LayerData.still) acc = incident env e i ls acc
  | [], _, _ => rfl
  | l :: ls, i, acc => by
    rw [List.map_cons]
    unfold incident
    simp only [incident_still e ls]
    rfl

theorem familiesLoop_still (o : Options K) (m e w lw : K) (comp : SMap String K) : ∀ fs : List (String × K),
    familiesLoop (still env) o m e w lw comp fs = familiesLoop env o m e w lw comp fs
  | [] => rfl
  | x :: fs => by
    unfold familiesLoop
    simp only [familiesLoop_still o m e w lw comp fs]
    rfl

theorem emissionsLoop_still (o : Options K) (m e w : K) : ∀ (ls : List (LayerData K)) (i : Nat) (inc : List (K × K)),
    emissionsLoop (still env) o m e w i (ls.map LayerData.still) inc = emissionsLoop env o m e w i ls inc
  | [], _, _ => by unfold emissionsLoop; rfl
  | l :: ls, i, [] => by rw [List.map_cons]; unfold emissionsLoop; rfl
  | l :: ls, i, p :: inc => by
    rw [List.map_cons]
    unfold emissionsLoop layerEmissions
    simp only [emissionsLoop_still o m e w ls, familiesLoop_still]
    rfl

theorem cacheLoop_still (es : List K) : ∀ (n i : Nat), cacheLoop (still env) es i n = cacheLoop env es i n
  | 0, _ => rfl
  | n + 1, i => by
    unfold cacheLoop
    simp only [cacheLoop_still es n]
    rfl

theorem rayData_still (o : Options K) (m e w : K) : rayData (still env) o m e w = rayData env o m e w := by
  unfold rayData
  have h1 : (still env).layers = env.layers.map LayerData.still := rfl
  simp only [h1, incident_still, emissionsLoop_still, cacheLoop_still, List.length_map]

theorem vget_still (ls : List (LayerData K)) (j : Nat) :
    vget (ls.map LayerData.still) j = (do let l ← vget ls j; return l.still) := by
  unfold vget
  rw [List.getElem?_map]
  cases ls[j]? <;> rfl

theorem cachedMu_still (rd : RayData K) (i : Nat) (e : K) : cachedMu (still env) rd i e = cachedMu env rd i e := rfl

theorem betweenLoop_still (rd : RayData K) (e : K) : ∀ (n b : Nat) (acc : K),
    betweenLoop (still env) rd e b n acc = betweenLoop env rd e b n acc
  | 0, _, _ => rfl
  | n + 1, b, acc => by
    unfold betweenLoop
    have h1 : (still env).layers = env.layers.map LayerData.still := rfl
    rw [h1, vget_still]
    simp only [cachedMu_still, betweenLoop_still rd e n]
    cases vget env.layers b <;> rfl

theorem intra_still (l : LayerData K) (muIn frac : K) (em : Emission K) (fs : SMap Str (Factor K)) (t : Str) (p : Tmp K) :
    intra (still env) l.still muIn frac em fs t p.bare = intra env l muIn frac em fs t p := rfl

theorem inter_still (rd : RayData K) (i j : Nat) (l1 l2 : LayerData K) (mu2 frac : K) (em : Emission K)
    (fs : SMap Str (Factor K)) (t : Str) (p : Tmp K) :
    inter (still env) rd i j l1.still l2.still mu2 frac em fs t p.bare = inter env rd i j l1 l2 mu2 frac em fs t p := by
  unfold inter
  simp only [betweenLoop_still]
  rfl

theorem lineLoop_bare {f g : Str → Tmp K → Outcome (Option K)} (hfg : ∀ t p, f t p = g t p.bare) (name : Str) :
    ∀ ls : List (Str × Tmp K), lineLoop f name ls = lineLoop g name (SMap.onValues Tmp.bare ls)
  | [] => rfl
  | (t, p) :: ls => by
    show _ = lineLoop g name ((t, p.bare) :: SMap.onValues Tmp.bare ls)
    unfold lineLoop
    rw [hfg, lineLoop_bare hfg name ls]

theorem emissionLoop_bare (element : String) (thr : K) (j : Nat) (lines : List (Str × Tmp K))
    {f g : Emission K → SMap Str (Factor K) → Str → Tmp K → Outcome (Option K)}
    (hfg : ∀ em fs t p, f em fs t p = g em fs t p.bare) : ∀ ems : List (Emission K),
    emissionLoop env element thr j lines f ems = emissionLoop (still env) element thr j (SMap.onValues Tmp.bare lines) g ems
  | [] => rfl
  | em :: ems => by
    unfold emissionLoop
    simp only [emissionLoop_bare element thr j lines hfg ems, fun fs => lineLoop_bare (hfg em fs) (contribName em j) lines]
    rfl

theorem secondaryLoop_bare (rd : RayData K) (element : String) (thr : K) (i : Nat) (l : LayerData K) (muIn lw frac : K)
    (lines : List (Str × Tmp K)) : ∀ (n j : Nat), secondaryLoop env rd element thr i l muIn lw frac lines j n =
      secondaryLoop (still env) rd element thr i l.still muIn lw frac (SMap.onValues Tmp.bare lines) j n
  | 0, _ => rfl
  | n + 1, j => by
    unfold secondaryLoop
    have h1 : (still env).layers = env.layers.map LayerData.still := rfl
    rw [h1, vget_still]
    simp only [secondaryLoop_bare rd element thr i l muIn lw frac lines n,
      emissionLoop_bare env element thr j lines (g := intra (still env) l.still muIn frac)
        (fun em fs t p => (intra_still env l muIn frac em fs t p).symm)]
    cases vget rd.emissions j with
    | ok ems =>
      cases vget rd.incident j with
      | ok p =>
        cases vget env.layers j with
        | ok l2 =>
          simp only [Outcome.ok_bind, Outcome.pure_eq]
          rw [emissionLoop_bare env element thr j lines (g := inter (still env) rd i j l.still l2.still p.2 frac)
            (fun em fs t q => (inter_still env rd i j l l2 p.2 frac em fs t q).symm)]
        | _ => rfl
      | _ => rfl
    | _ => rfl


theorem efficiency_still {i : Nat} {q e d : K} (h : efficiency env i q e = .ok d) : ∃ d0, efficiency (still env) i 0 e = .ok d0 := by
  have hup : ∀ (n : Nat) (a : K), ∃ a', upperLoop (still env) e n a = .ok a' := by
    intro n
    induction n with
    | zero => exact fun a => ⟨a, rfl⟩
    | succ n ih =>
      intro a
      unfold upperLoop
      show ∃ a', (do let t ← Outcome.ok 1; upperLoop (still env) e n (a * t)) = .ok a'
      rw [Outcome.ok_bind]
      exact ih _
  unfold efficiency at h ⊢
  obtain ⟨a, -, h⟩ := Outcome.bind_eq_ok.mp h
  obtain ⟨b, -, h⟩ := Outcome.bind_eq_ok.mp h
  obtain ⟨a', ha'⟩ := hup i 1
  rw [ha', Outcome.ok_bind]
  show ∃ d0, (do
    let d ← attenuatorLoop e [] a'
    let d := ([] : List (K → K)).foldl (fun (d : K) (t : K → K) => d * t e) d
    let d := d * 0
    if env.hasDetector then do
      let q ← Outcome.ok 1
      let _ ← env.escape e
      return d * q
    else return d) = .ok d0
  simp only [attenuatorLoop, Outcome.ok_bind, List.foldl_nil]
  split at h
  · rename_i hd
    obtain ⟨u, -, h⟩ := Outcome.bind_eq_ok.mp h
    obtain ⟨v, hv, h⟩ := Outcome.bind_eq_ok.mp h
    rw [if_pos hd, hv]
    exact ⟨_, rfl⟩
  · rename_i hd
    rw [if_neg hd]
    exact ⟨_, rfl⟩

theorem bare_ext {l l0 : Leaf K} (h : l.bare = l0.bare) : l.energy = l0.energy ∧ l.threshold = l0.threshold ∧ l.mu = l0.mu ∧
    l.primary = l0.primary ∧ l.secondary = l0.secondary ∧ l.massFraction = l0.massFraction ∧ l.ratio = l0.ratio ∧
    l.tertiary = l0.tertiary ∧ l.contrib = l0.contrib := by
  simp only [Leaf.bare, Leaf.mk.injEq] at h
  tauto

theorem openLines_still (key family : String) (i : Nat) (q thr : K) : ∀ (fs : List (Str × Factor K)) (res res0 : Result K)
    (v : List (Str × Tmp K) × Result K), bare res = bare res0 → openLines env key family i q thr fs res = .ok v →
    ∃ v0, openLines (still env) key family i 0 thr fs res0 = .ok v0 ∧ SameLines v.1 v0.1 ∧ bare v.2 = bare v0.2 := by
  intro fs
  induction fs with
  | nil =>
    intro res res0 v hb h
    cases h
    exact ⟨([], res0), rfl, rfl, hb⟩
  | cons x fs ih =>
    obtain ⟨t, f⟩ := x
    intro res res0 v hb h
    unfold openLines at h ⊢
    by_cases h1 : inFamily family t = false
    · rw [if_pos h1] at h ⊢
      exact ih _ _ _ hb h
    rw [if_neg h1] at h ⊢
    by_cases h2 : f.factor ≤ 0
    · rw [if_pos h2] at h ⊢
      exact ih _ _ _ hb h
    rw [if_neg h2] at h ⊢
    have hl := bare_leaf_eq hb key i t
    cases e1 : leaf? res key i t with
    | some l =>
      cases e2 : leaf? res0 key i t with
      | none => rw [e1, e2] at hl; cases hl
      | some l0 =>
        rw [e1, e2] at hl
        rw [e1] at h
        simp only [Option.map_some, Option.some.injEq] at hl
        dsimp only at h ⊢
        obtain ⟨r, h3, h4⟩ := Outcome.bind_eq_ok.mp h
        cases h4
        obtain ⟨r0, h5, h6, h7⟩ := ih _ _ _ hb h3
        rw [h5]
        refine ⟨_, rfl, ?_, h7⟩
        obtain ⟨he, -, hm, -⟩ := bare_ext hl
        unfold SameLines SMap.onValues at h6 ⊢
        rw [List.map_cons, List.map_cons, h6]
        simp only [Tmp.bare, he, hm]
    | none =>
      cases e2 : leaf? res0 key i t with
      | some l0 => rw [e1, e2] at hl; cases hl
      | none =>
        rw [e1] at h
        dsimp only at h ⊢
        obtain ⟨m, h3, h⟩ := Outcome.bind_eq_ok.mp h
        obtain ⟨d, h4, h⟩ := Outcome.bind_eq_ok.mp h
        obtain ⟨r, h5, h6⟩ := Outcome.bind_eq_ok.mp h
        cases h6
        obtain ⟨d0, hd0⟩ := efficiency_still env h4
        have hmu : (still env).mu i f.energy = .ok m := h3
        rw [hmu, Outcome.ok_bind, hd0, Outcome.ok_bind]
        obtain ⟨r0, h6, h7, h8⟩ := ih _ (put res0 key i t { Leaf.zero with energy := f.energy, efficiency := d0, threshold := thr, mu := m })
          _ (by rw [put_bare, put_bare, hb]; rfl) h5
        rw [h6]
        refine ⟨_, rfl, ?_, h8⟩
        unfold SameLines SMap.onValues at h7 ⊢
        rw [List.map_cons, List.map_cons, h7]
        simp only [Tmp.bare]

theorem primaryOf_still (l : LayerData K) (muIn lw frac : K) (p p0 : Tmp K) (h : p.bare = p0.bare) :
    (primaryOf env l muIn lw frac p).bare = (primaryOf (still env) l.still muIn lw frac p0).bare := by
  obtain ⟨a1, a2, a3, a4, a5, a6, a7⟩ := p
  obtain ⟨b1, b2, b3, b4, b5, b6, b7⟩ := p0
  simp only [Tmp.bare, Tmp.mk.injEq] at h
  obtain ⟨rfl, rfl, -, rfl, rfl, rfl, -⟩ := h
  rfl

theorem sameLines_map {a b : List (Str × Tmp K)} (h : SameLines a b) {f g : Str → Tmp K → Tmp K}
    (hfg : ∀ t p p0, Tmp.bare p = Tmp.bare p0 → (f t p).bare = (g t p0).bare) :
    SameLines (a.map (fun e => (e.1, f e.1 e.2))) (b.map (fun e => (e.1, g e.1 e.2))) := by
  unfold SameLines SMap.onValues at h ⊢
  induction a generalizing b with
  | nil =>
    cases b with
    | nil => rfl
    | cons _ _ => cases h
  | cons x a ih =>
    cases b with
    | nil => cases h
    | cons y b =>
      simp only [List.map_cons, List.cons.injEq, Prod.mk.injEq] at h
      simp only [List.map_cons, List.cons.injEq, Prod.mk.injEq]
      refine ⟨⟨h.1.1, ?_⟩, ih h.2⟩
      rw [h.1.1]
      exact hfg _ _ _ h.1.2

theorem bare_getD {r r' : Result K} (h : bare r = bare r') (k : String) (i : Nat) (t : Str) {d : Leaf K} :
    Leaf.bare ((leaf? r k i t).getD d) = Leaf.bare ((leaf? r' k i t).getD d) := by
  have hl := bare_leaf_eq h k i t
  cases e1 : leaf? r k i t with
  | none =>
    cases e2 : leaf? r' k i t with
    | none => rfl
    | some l0 => rw [e1, e2] at hl; cases hl
  | some l =>
    cases e2 : leaf? r' k i t with
    | none => rw [e1, e2] at hl; cases hl
    | some l0 => rw [e1, e2] at hl; exact Option.some.inj hl

theorem addContribution_bare (key : String) (i : Nat) (c : Contribution K) {s s0 : List (Str × Tmp K) × Result K}
    (h1 : SameLines s.1 s0.1) (h2 : bare s.2 = bare s0.2) :
    SameLines (addContribution key i s c).1 (addContribution key i s0 c).1 ∧
    bare (addContribution key i s c).2 = bare (addContribution key i s0 c).2 := by
  constructor
  · have hf : ∀ s : List (Str × Tmp K) × Result K, (addContribution key i s c).1 = s.1.map (fun e => (e.1,
        (fun (t : Str) (p : Tmp K) => if t = c.1 then
          { p with secondary := p.secondary + c.2.2, rate := p.rate + c.2.2 * p.efficiency } else p) e.1 e.2)) := by
      intro s
      unfold addContribution
      dsimp only
      apply List.map_congr_left
      intro e _
      split <;> rfl
    rw [hf, hf]
    refine sameLines_map h1 (f := fun (t : Str) (p : Tmp K) => if t = c.1 then
          { p with secondary := p.secondary + c.2.2, rate := p.rate + c.2.2 * p.efficiency } else p)
      (g := fun (t : Str) (p : Tmp K) => if t = c.1 then
          { p with secondary := p.secondary + c.2.2, rate := p.rate + c.2.2 * p.efficiency } else p) ?_
    intro t p p0 hp
    split
    · obtain ⟨a1, a2, a3, a4, a5, a6, a7⟩ := p
      obtain ⟨b1, b2, b3, b4, b5, b6, b7⟩ := p0
      simp only [Tmp.bare, Tmp.mk.injEq] at hp ⊢
      obtain ⟨rfl, rfl, -, rfl, rfl, rfl, -⟩ := hp
      simp
    · exact hp
  · unfold addContribution
    dsimp only
    rw [put_bare, put_bare, h2]
    congr 1
    have := bare_getD h2 key i c.1 (d := Leaf.zero)
    generalize (leaf? s.2 key i c.1).getD Leaf.zero = l at this ⊢
    generalize (leaf? s0.2 key i c.1).getD Leaf.zero = l0 at this ⊢
    obtain ⟨e1, e2, e3, e4, e5, e6, e7, e8, e9⟩ := bare_ext this
    simp only [Leaf.bare, e1, e2, e3, e4, e5, e6, e7, e8, e9]

theorem foldl_bare (key : String) (i : Nat) : ∀ (cs : List (Contribution K)) {s s0 : List (Str × Tmp K) × Result K},
    SameLines s.1 s0.1 → bare s.2 = bare s0.2 →
    SameLines (cs.foldl (addContribution key i) s).1 (cs.foldl (addContribution key i) s0).1 ∧
    bare (cs.foldl (addContribution key i) s).2 = bare (cs.foldl (addContribution key i) s0).2
  | [], _, _, h1, h2 => ⟨h1, h2⟩
  | c :: cs, _, _, h1, h2 => by
    obtain ⟨h3, h4⟩ := addContribution_bare key i c h1 h2
    exact foldl_bare key i cs h3 h4

theorem depositEscapes_bare (key : String) (i : Nat) (t : Str) {p p0 : Tmp K} (hp : p.bare = p0.bare) :
    ∀ (esc : List (String × Line K)) {res res0 : Result K}, bare res = bare res0 →
    bare (depositEscapes key i t p esc res) = bare (depositEscapes key i t p0 esc res0)
  | [], _, _, h => h
  | (n, e) :: esc, res, res0, h => by
    unfold depositEscapes
    dsimp only
    refine depositEscapes_bare key i t hp esc ?_
    rw [put_bare, put_bare, h]
    congr 1
    have := bare_getD h key i (t ++ ' ' :: n.toList) (d := { Leaf.zero with energy := e.energy })
    generalize (leaf? res key i (t ++ ' ' :: n.toList)).getD _ = l at this ⊢
    generalize (leaf? res0 key i (t ++ ' ' :: n.toList)).getD _ = l0 at this ⊢
    obtain ⟨e1, e2, e3, e4, e5, e6, e7, e8, e9⟩ := bare_ext this
    have hq : p.primary = p0.primary ∧ p.secondary = p0.secondary := by
      simp only [Tmp.bare, Tmp.mk.injEq] at hp
      tauto
    simp only [Leaf.bare, e1, e2, e3, e4, e5, e6, e8, e9, hq.1, hq.2]

theorem deposit_still (key : String) (i : Nat) (mf : K) : ∀ (ls ls0 : List (Str × Tmp K)) (res res0 r : Result K),
    SameLines ls ls0 → bare res = bare res0 → deposit env key i mf ls res = .ok r →
    ∃ r0, deposit (still env) key i mf ls0 res0 = .ok r0 ∧ bare r = bare r0 := by
  intro ls
  induction ls with
  | nil =>
    intro ls0 res res0 r h1 h2 h
    cases ls0 with
    | nil => cases h; exact ⟨res0, rfl, h2⟩
    | cons _ _ => cases h1
  | cons x ls ih =>
    intro ls0 res res0 r h1 h2 h
    cases ls0 with
    | nil => cases h1
    | cons y ls0 =>
      obtain ⟨t, p⟩ := x
      obtain ⟨t0, p0⟩ := y
      unfold SameLines SMap.onValues at h1
      simp only [List.map_cons, List.cons.injEq, Prod.mk.injEq] at h1
      obtain ⟨⟨rfl, hp⟩, h1⟩ := h1
      unfold deposit at h ⊢
      have hq : p.primary = p0.primary ∧ p.secondary = p0.secondary ∧ p.energy = p0.energy := by
        simp only [Tmp.bare, Tmp.mk.injEq] at hp
        tauto
      obtain ⟨esc, h3, h4⟩ := Outcome.bind_eq_ok.mp h
      have h3' : (if (still env).hasDetector then (still env).escape p0.energy else .ok []) = .ok esc := by
        rw [← hq.2.2]; exact h3
      rw [h3', Outcome.ok_bind]
      refine ih _ _ _ _ h1 ?_ h4
      have hd := depositEscapes_bare key i t hp esc h2
      rw [put_bare, put_bare, hd]
      congr 1
      have := bare_getD hd key i t (d := Leaf.zero)
      generalize (leaf? (depositEscapes key i t p esc res) key i t).getD _ = l at this ⊢
      generalize (leaf? (depositEscapes key i t p0 esc res0) key i t).getD _ = l0 at this ⊢
      obtain ⟨e1, e2, e3, e4, e5, e6, e7, e8, e9⟩ := bare_ext this
      simp only [Leaf.bare, e1, e2, e3, e4, e5, e7, e8, e9, hq.1, hq.2]

theorem sameLines_nil {a b : List (Str × Tmp K)} (h : SameLines a b) : a = [] ↔ b = [] := by
  unfold SameLines SMap.onValues at h
  constructor
  · rintro rfl; simpa using h.symm
  · rintro rfl; simpa using h

theorem cell_still (o : Options K) (rd : RayData K) (req : Request) (thr : K) (fs : SMap Str (Factor K)) (i : Nat)
    (l : LayerData K) (res res0 r : Result K) (hb : bare res = bare res0) (h : cell env o rd req thr fs i l res = .ok r) :
    ∃ r0, cell (still env) o rd req thr fs i l.still res0 = .ok r0 ∧ bare r = bare r0 := by
  unfold cell at h ⊢
  by_cases h1 : req.layer ≥ 0 ∧ (i : Int) ≠ req.layer
  · rw [if_pos h1] at h ⊢
    cases h
    exact ⟨_, rfl, hb⟩
  rw [if_neg h1] at h ⊢
  dsimp only at h ⊢
  generalize hfrac : (if o.useMassFractions = true then (SMap.find? l.composition req.element).getD 0 else 1) = frac at h ⊢
  by_cases h2 : frac = 0
  · rw [if_pos h2] at h ⊢
    cases h
    exact ⟨_, rfl, hb⟩
  rw [if_neg h2] at h ⊢
  obtain ⟨v, h3, h⟩ := Outcome.bind_eq_ok.mp h
  obtain ⟨v0, h4, h5, h6⟩ := openLines_still env _ _ _ _ _ _ _ _ _ hb h3
  rw [h4, Outcome.ok_bind]
  obtain ⟨lines, res1⟩ := v
  obtain ⟨lines0, res10⟩ := v0
  dsimp only at h h5 h6 ⊢
  by_cases hn : lines = []
  · rw [if_pos hn] at h
    rw [if_pos ((sameLines_nil h5).1 hn)]
    cases h
    exact ⟨_, rfl, h6⟩
  rw [if_neg hn] at h
  rw [if_neg (fun hh => hn ((sameLines_nil h5).2 hh))]
  obtain ⟨muIn, h7, h⟩ := Outcome.bind_eq_ok.mp h
  obtain ⟨p, h8, h⟩ := Outcome.bind_eq_ok.mp h
  obtain ⟨cs, h9, h⟩ := Outcome.bind_eq_ok.mp h
  have h7' : (still env).mu i rd.energy = .ok muIn := h7
  rw [h7', Outcome.ok_bind, h8, Outcome.ok_bind]
  have hpl : SameLines (lines.map (fun e => (e.1, primaryOf env l muIn p.1 frac e.2)))
      (lines0.map (fun e => (e.1, primaryOf (still env) l.still muIn p.1 frac e.2))) :=
    sameLines_map h5 (f := fun _ p' => primaryOf env l muIn p.1 frac p') (g := fun _ p' => primaryOf (still env) l.still muIn p.1 frac p')
      (fun _ _ _ hp => primaryOf_still env l muIn p.1 frac _ _ hp)
  have hcs : (if o.secondary > 0 then secondaryLoop (still env) rd req.element thr i l.still muIn p.1 frac
      (lines0.map (fun e => (e.1, primaryOf (still env) l.still muIn p.1 frac e.2))) 0 (still env).layers.length else .ok []) = .ok cs := by
    rw [← h9]
    split
    · have hlen : (still env).layers.length = env.layers.length := by simp [still]
      have hs2 : ∀ ls n, secondaryLoop (still env) rd req.element thr i l.still muIn p.1 frac ls 0 n =
          secondaryLoop (still env) rd req.element thr i l.still muIn p.1 frac (SMap.onValues Tmp.bare ls) 0 n := by
        intro ls n
        have h10 := secondaryLoop_bare (still env) rd req.element thr i l.still muIn p.1 frac ls n 0
        have h11 : still (still env) = still env := by
          unfold still
          simp only [List.map_map]
          rfl
        rw [h11] at h10
        exact h10
      rw [hlen, hs2, ← hpl, ← secondaryLoop_bare]
    · rfl
  rw [hcs, Outcome.ok_bind]
  obtain ⟨h10, h11⟩ := foldl_bare (req.element ++ " " ++ req.family) i cs (s := (_, res1)) (s0 := (_, res10)) hpl h6
  exact deposit_still env _ _ _ _ _ _ _ _ h10 h11 h

theorem cellLoop_still (o : Options K) (rd : RayData K) (req : Request) (thr : K) (fs : SMap Str (Factor K)) :
    ∀ (ls : List (LayerData K)) (i : Nat) (res res0 r : Result K), bare res = bare res0 →
    cellLoop env o rd req thr fs i ls res = .ok r →
    ∃ r0, cellLoop (still env) o rd req thr fs i (ls.map LayerData.still) res0 = .ok r0 ∧ bare r = bare r0
  | [], _, _, res0, _, hb, h => by cases h; exact ⟨res0, rfl, hb⟩
  | l :: ls, i, res, res0, r, hb, h => by
    rw [List.map_cons]
    unfold cellLoop at h ⊢
    obtain ⟨r1, h1, h⟩ := Outcome.bind_eq_ok.mp h
    obtain ⟨r2, h2, h3⟩ := cell_still env o rd req thr fs i l res res0 r1 hb h1
    rw [h2, Outcome.ok_bind]
    exact cellLoop_still o rd req thr fs ls (i + 1) r1 r2 r h3 h

theorem requestLoop_still (o : Options K) (rd : RayData K) : ∀ (qs : List (Outcome Request)) (n : Nat) (thrs : List K)
    (res res0 : Result K) (v : List K × Result K), bare res = bare res0 → requestLoop env o rd n qs thrs res = .ok v →
    ∃ v0, requestLoop (still env) o rd n qs thrs res0 = .ok v0 ∧ v0.1 = v.1 ∧ bare v.2 = bare v0.2
  | [], _, _, _, res0, _, hb, h => by cases h; exact ⟨(_, res0), rfl, rfl, hb⟩
  | q :: qs, n, thrs, res, res0, v, hb, h => by
    unfold requestLoop at h ⊢
    obtain ⟨req, h1, h⟩ := Outcome.bind_eq_ok.mp h
    obtain ⟨⟨thr, thrs'⟩, h2, h⟩ := Outcome.bind_eq_ok.mp h
    have h2' : thresholdOf (still env) req n thrs = .ok (thr, thrs') := h2
    rw [h1, Outcome.ok_bind, h2', Outcome.ok_bind]
    dsimp only at h ⊢
    by_cases hc : thr > rd.energy
    · rw [if_pos hc] at h ⊢
      exact requestLoop_still o rd qs _ _ _ _ _ hb h
    rw [if_neg hc] at h ⊢
    obtain ⟨fs, h3, h⟩ := Outcome.bind_eq_ok.mp h
    obtain ⟨r1, h4, h⟩ := Outcome.bind_eq_ok.mp h
    have h3' : (still env).excite req.element rd.energy rd.weight = .ok fs := h3
    obtain ⟨r2, h5, h6⟩ := cellLoop_still env o rd req thr fs _ _ _ _ _ hb h4
    have h5' : cellLoop (still env) o rd req thr fs 0 (still env).layers res0 = .ok r2 := h5
    rw [h3', Outcome.ok_bind, h5', Outcome.ok_bind]
    exact requestLoop_still o rd qs _ _ _ _ _ h6 h

theorem rayLoop_still (o : Options K) (reqs : List (Outcome Request)) : ∀ (rays : List (K × K)) (thrs : List K) (m : K)
    (res res0 r : Result K), bare res = bare res0 → rayLoop env o reqs rays thrs m res = .ok r →
    ∃ r0, rayLoop (still env) o reqs rays thrs m res0 = .ok r0 ∧ bare r = bare r0
  | [], _, _, _, res0, _, hb, h => by cases h; exact ⟨res0, rfl, hb⟩
  | (e, w) :: rays, thrs, m, res, res0, r, hb, h => by
    unfold rayLoop at h ⊢
    dsimp only at h ⊢
    by_cases hc : e < minimumThreshold thrs m
    · rw [if_pos hc] at h ⊢
      exact rayLoop_still o reqs rays _ _ _ _ _ hb h
    rw [if_neg hc] at h ⊢
    obtain ⟨rd, h1, h⟩ := Outcome.bind_eq_ok.mp h
    obtain ⟨⟨thrs', r1⟩, h2, h⟩ := Outcome.bind_eq_ok.mp h
    rw [rayData_still, h1, Outcome.ok_bind]
    obtain ⟨⟨thrs0, r2⟩, h3, h4, h5⟩ := requestLoop_still env o rd _ _ _ _ _ _ hb h2
    dsimp only at h4 h5 h
    subst h4
    rw [h3, Outcome.ok_bind]
    exact rayLoop_still o reqs rays _ _ _ _ _ h5 h

/-! ### Tertiary excitation -/

theorem factorFirst_bare (l : Leaf K) : factorFirst l.bare = factorFirst l := rfl

theorem keysLoop_bare (ele : Str) (i : Nat) : ∀ (ls : List (Str × Leaf K)) (ks : SMap Str K),
    keysLoop ele i (SMap.onValues Leaf.bare ls) ks = keysLoop ele i ls ks
  | [], _ => rfl
  | (t, l) :: ls, ks => by
    show keysLoop ele i ((t, l.bare) :: SMap.onValues Leaf.bare ls) ks = _
    unfold keysLoop
    simp only [keysLoop_bare ele i ls, factorFirst_bare]
    rfl

theorem fillLoop_onValues {V W : Type} (f : SMap Str V → SMap Str W) (hf : f [] = []) : ∀ (n i : Nat) (m : SMap Nat (SMap Str V)),
    fillLoop n i (SMap.onValues f m) = SMap.onValues f (fillLoop n i m)
  | 0, _, _ => rfl
  | n + 1, i, m => by
    unfold fillLoop
    rw [SMap.length_onValues, SMap.mem_onValues]
    split
    · rw [← fillLoop_onValues f hf n]
      congr 1
      split
      · rfl
      · rw [SMap.insert_onValues, hf]
    · rfl

theorem fillLayers_onValues {V W : Type} (f : SMap Str V → SMap Str W) (hf : f [] = []) (m : SMap Nat (SMap Str V)) :
    fillLayers (SMap.onValues f m) = SMap.onValues f (fillLayers m) := by
  unfold fillLayers
  rw [fillLoop_onValues f hf]
  congr 2
  generalize 0 = a
  congr 1
  unfold SMap.onValues
  rw [List.foldl_map]

theorem tertiaryOf_bare (ks : SMap Str K) (lines lines' : SMap Str (Leaf K))
    (h : SMap.onValues Leaf.bare lines = SMap.onValues Leaf.bare lines') (t : Str) (l : Leaf K) :
    (tertiaryOf ks lines t l).bare = (tertiaryOf ks lines' t l.bare).bare := by
  have hp : ∀ n, Leaf.bare ((lines.find? n).getD Leaf.zero) = Leaf.bare ((lines'.find? n).getD Leaf.zero) := by
    intro n
    have := congrArg (fun m => SMap.find? m n) h
    simp only [SMap.find?_onValues] at this
    cases h1 : lines.find? n with
    | none => cases h2 : lines'.find? n with
      | none => rfl
      | some _ => rw [h1, h2] at this; cases this
    | some a => cases h2 : lines'.find? n with
      | none => rw [h1, h2] at this; cases this
      | some b => rw [h1, h2] at this; exact Option.some.inj this
  unfold tertiaryOf
  rw [factorFirst_bare]
  split
  · rfl
  · have hv : (if hasEsc t then escapeTertiary lines t l else lineTertiary ks l) =
        (if hasEsc t then escapeTertiary lines' t l.bare else lineTertiary ks l.bare) := by
      split
      · unfold escapeTertiary
        obtain ⟨-, -, -, e4, e5, -, -, e8, -⟩ := bare_ext (hp (t.takeWhile (fun c => c ≠ ' ')))
        dsimp only
        rw [e4, e5, e8]
        rfl
      · rfl
    dsimp only
    rw [hv]
    rfl

theorem tertiaryLoop_bare (ks : SMap Str K) : ∀ (ls : List (Str × Leaf K)) (lines lines' : SMap Str (Leaf K)),
    SMap.onValues Leaf.bare lines = SMap.onValues Leaf.bare lines' →
    SMap.onValues Leaf.bare (tertiaryLoop ks ls lines) =
      SMap.onValues Leaf.bare (tertiaryLoop ks (SMap.onValues Leaf.bare ls) lines')
  | [], _, _, h => h
  | (t, l) :: ls, lines, lines', h => by
    show _ = SMap.onValues Leaf.bare (tertiaryLoop ks ((t, l.bare) :: SMap.onValues Leaf.bare ls) lines')
    unfold tertiaryLoop
    refine tertiaryLoop_bare ks ls _ _ ?_
    rw [SMap.insert_onValues, SMap.insert_onValues, h, tertiaryOf_bare ks lines lines' h]

theorem bare_bare (l : Leaf K) : l.bare.bare = l.bare := rfl

theorem onValues_onValues {κ A B C : Type} (f : A → B) (g : B → C) (m : SMap κ A) :
    SMap.onValues g (SMap.onValues f m) = SMap.onValues (fun a => g (f a)) m := by
  unfold SMap.onValues
  rw [List.map_map]
  rfl

theorem tertiary_bare (r : Result K) : bare (tertiary r) = bare (tertiary (bare r)) := by
  have hfill : (bare r).map (fun e => (e.1, fillLayers e.2)) = bare (r.map (fun e => (e.1, fillLayers e.2))) := by
    unfold bare SMap.onValues
    rw [List.map_map, List.map_map]
    apply List.map_congr_left
    intro e _
    exact congrArg (Prod.mk e.1) (fillLayers_onValues (SMap.onValues Leaf.bare) rfl e.2)
  unfold tertiary
  rw [hfill]
  dsimp only
  generalize r.map (fun e => (e.1, fillLayers e.2)) = q
  have hks : (bare q).foldl (fun ks e => e.2.foldl (fun ks p =>
      keysLoop (e.1.toList.takeWhile (fun c => c ≠ ' ')) p.1 p.2 ks) ks) [] =
      q.foldl (fun ks e => e.2.foldl (fun ks p =>
      keysLoop (e.1.toList.takeWhile (fun c => c ≠ ' ')) p.1 p.2 ks) ks) [] := by
    unfold bare
    unfold SMap.onValues
    rw [List.foldl_map]
    congr 1
    funext ks e
    dsimp only
    rw [List.foldl_map]
    congr 1
    funext ks p
    exact keysLoop_bare _ _ _ _
  rw [hks]
  generalize q.foldl _ _ = ks
  unfold bare
  unfold SMap.onValues
  simp only [List.map_map]
  apply List.map_congr_left
  intro e _
  refine congrArg (Prod.mk e.1) ?_
  dsimp only [Function.comp]
  simp only [List.map_map]
  apply List.map_congr_left
  intro p _
  refine congrArg (Prod.mk p.1) ?_
  refine tertiaryLoop_bare ks p.2 p.2 _ ?_
  show List.map _ _ = List.map _ (List.map _ _)
  rw [List.map_map]
  rfl

/-- Everything in the result but efficiencies and rates is the same without anything between sample and detector. -/
theorem calculate_still (o : Options K) (reqs : List (Outcome Request)) (rays : List (K × K)) (r : Result K)
    (h : calculate env o reqs rays = .ok r) : ∃ r0, calculate (still env) o reqs rays = .ok r0 ∧ bare r = bare r0 := by
  unfold calculate at h ⊢
  obtain ⟨r1, h1, h2⟩ := Outcome.bind_eq_ok.mp h
  obtain ⟨r2, h3, h4⟩ := rayLoop_still env o reqs _ _ _ _ _ _ rfl h1
  rw [h3, Outcome.ok_bind]
  refine ⟨_, rfl, ?_⟩
  cases h2
  split
  · rw [tertiary_bare, h4, ← tertiary_bare]
  · exact h4

end loops

end Multilayer
end Fisx
