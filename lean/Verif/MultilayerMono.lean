import Verif.MultilayerParts
import Verif.MultilayerExample

/-!
# The calculation with functions that answer more often

If the functions called by the calculation are replaced by functions that give the same values wherever the old ones gave values,
the calculation gives the same result wherever it gave one. Used for C160 and C161.
-/

set_option linter.unusedSectionVars false

namespace Fisx

/-- `y` is `x` wherever `x` has a value. -/
def Outcome.Le {α : Type} (x y : Outcome α) : Prop := ∀ v, x = .ok v → y = .ok v

namespace Outcome

theorem Le.refl {α : Type} (x : Outcome α) : Le x x := fun _ h => h

theorem Le.of_eq {α : Type} {x y : Outcome α} (h : x = y) : Le x y := fun _ hv => h ▸ hv

theorem Le.bind {α β : Type} {x y : Outcome α} {f g : α → Outcome β} (h : Le x y) (hf : ∀ a, Le (f a) (g a)) :
    Le (x >>= f) (y >>= g) := by
  intro v hv
  obtain ⟨a, h1, h2⟩ := Outcome.bind_eq_ok.mp hv
  exact Outcome.bind_eq_ok.mpr ⟨a, h a h1, hf a v h2⟩

theorem Le.ite {α : Type} {c : Prop} [Decidable c] {x y x' y' : Outcome α} (h : Le x x') (h' : Le y y') :
    Le (if c then x else y) (if c then x' else y') := by
  split
  · exact h
  · exact h'

end Outcome

namespace Multilayer

open Outcome (Le)
open Xrf (Request)

variable {K : Type} [Field K] [LinearOrder K] [IsStrictOrderedRing K]

/-- The functions of `env'` give what those of `env` give, and perhaps more. -/
structure EnvLe (env env' : Env K) : Prop where
  layers : env'.layers = env.layers
  sinIn : env'.sinIn = env.sinIn
  sinOut : env'.sinOut = env.sinOut
  exp : env'.exp = env.exp
  mu : ∀ i e, Le (env.mu i e) (env'.mu i e)
  mus : ∀ i es, Le (env.mus i es) (env'.mus i es)
  families : ∀ i e, Le (env.families i e) (env'.families i e)
  excite : ∀ s e w, Le (env.excite s e w) (env'.excite s e w)
  threshold : ∀ s f, Le (env.threshold s f) (env'.threshold s f)
  efficiency : ∀ i g e, Le (efficiency env i g e) (efficiency env' i g e)
  hasDetector : env'.hasDetector = env.hasDetector
  escape : ∀ e, Le (env.escape e) (env'.escape e)
  l0 : ∀ a b c d e, Le (env.l0 a b c d e) (env'.l0 a b c d e)
  x : ∀ a b c d e f g, Le (env.x a b c d e f g) (env'.x a b c d e f g)

variable {env env' : Env K}

theorem incident_le (h : EnvLe env env') (e : K) : ∀ (ls : List (LayerData K)) (i : Nat) (acc : K),
    Le (incident env e i ls acc) (incident env' e i ls acc)
  | [], _, _ => Le.refl _
  | l :: ls, i, acc => by
    unfold incident
    rw [h.sinIn, h.exp]
    exact (h.mu i e).bind fun m => (incident_le h e ls _ _).bind fun r => Le.refl _

theorem familiesLoop_le (h : EnvLe env env') (o : Options K) (minE e w lw : K) (comp : SMap String K) :
    ∀ fs : List (String × K), Le (familiesLoop env o minE e w lw comp fs) (familiesLoop env' o minE e w lw comp fs)
  | [] => Le.refl _
  | f :: fs => by
    unfold familiesLoop
    exact (h.excite _ _ _).bind fun x => (familiesLoop_le h o minE e w lw comp fs).bind fun r => Le.refl _

theorem layerEmissions_le (h : EnvLe env env') (o : Options K) (minE e w : K) (i : Nat) (l : LayerData K) (lw : K) :
    Le (layerEmissions env o minE e w i l lw) (layerEmissions env' o minE e w i l lw) := by
  unfold layerEmissions
  exact (h.families i e).bind fun fam => (familiesLoop_le h o minE e w lw _ fam).bind fun raw => (h.mus _ _).bind fun ms =>
    Le.refl _

theorem emissionsLoop_le (h : EnvLe env env') (o : Options K) (minE e w : K) : ∀ (i : Nat) (ls : List (LayerData K))
    (ps : List (K × K)), Le (emissionsLoop env o minE e w i ls ps) (emissionsLoop env' o minE e w i ls ps)
  | _, [], _ => by unfold emissionsLoop; exact Le.refl _
  | _, _ :: _, [] => by unfold emissionsLoop; exact Le.refl _
  | i, l :: ls, p :: ps => by
    unfold emissionsLoop
    exact (layerEmissions_le h o minE e w i l p.1).bind fun em => (emissionsLoop_le h o minE e w (i + 1) ls ps).bind fun r =>
      Le.refl _

theorem cacheLoop_le (h : EnvLe env env') (es : List K) : ∀ (n i : Nat), Le (cacheLoop env es i n) (cacheLoop env' es i n)
  | 0, _ => Le.refl _
  | n + 1, i => by
    unfold cacheLoop
    exact (h.mus _ _).bind fun ms => (cacheLoop_le h es n (i + 1)).bind fun r => Le.refl _

theorem rayData_le (h : EnvLe env env') (o : Options K) (minE e w : K) : Le (rayData env o minE e w) (rayData env' o minE e w) := by
  unfold rayData
  rw [h.layers]
  refine (incident_le h e _ _ _).bind fun inc => ?_
  refine (Le.ite (emissionsLoop_le h o minE e w _ _ _) (Le.refl _)).bind fun ems => ?_
  exact (cacheLoop_le h _ _ _).bind fun cs => Le.refl _

theorem openLines_le (h : EnvLe env env') (key family : String) (i : Nat) (g thr : K) : ∀ (fs : List (Str × Factor K))
    (res : Result K), Le (openLines env key family i g thr fs res) (openLines env' key family i g thr fs res)
  | [], _ => Le.refl _
  | (t, f) :: fs, res => by
    unfold openLines
    refine Le.ite (openLines_le h key family i g thr fs res) (Le.ite (openLines_le h key family i g thr fs res) ?_)
    split
    · exact (openLines_le h key family i g thr fs res).bind fun r => Le.refl _
    · exact (h.mu _ _).bind fun m => (h.efficiency _ _ _).bind fun d => (openLines_le h key family i g thr fs _).bind fun r => Le.refl _

theorem intra_le (h : EnvLe env env') (l : LayerData K) (muIn frac : K) (em : Emission K) (fs : SMap Str (Factor K)) (t : Str)
    (p : Tmp K) : Le (intra env l muIn frac em fs t p) (intra env' l muIn frac em fs t p) := by
  unfold intra
  rw [h.sinIn, h.sinOut]
  split
  · exact Le.refl _
  · exact (h.l0 _ _ _ _ _).bind fun a => (Le.ite (h.l0 _ _ _ _ _) (h.l0 _ _ _ _ _)).bind fun b => Le.refl _

theorem cachedMu_le (h : EnvLe env env') (rd : RayData K) (i : Nat) (e : K) : Le (cachedMu env rd i e) (cachedMu env' rd i e) := by
  unfold cachedMu
  exact Le.ite (Le.refl _) (h.mu _ _)

theorem betweenLoop_le (h : EnvLe env env') (rd : RayData K) (e : K) : ∀ (n b : Nat) (acc : K),
    Le (betweenLoop env rd e b n acc) (betweenLoop env' rd e b n acc)
  | 0, _, _ => Le.refl _
  | n + 1, b, acc => by
    unfold betweenLoop
    rw [h.layers]
    exact (Le.refl _).bind fun l => (cachedMu_le h rd b e).bind fun m => betweenLoop_le h rd e n _ _

theorem inter_le (h : EnvLe env env') (rd : RayData K) (i j : Nat) (l1 l2 : LayerData K) (mu2 frac : K) (em : Emission K)
    (fs : SMap Str (Factor K)) (t : Str) (p : Tmp K) :
    Le (inter env rd i j l1 l2 mu2 frac em fs t p) (inter env' rd i j l1 l2 mu2 frac em fs t p) := by
  unfold inter
  rw [h.sinIn, h.sinOut, h.exp]
  split
  · exact Le.refl _
  · refine Le.ite (Le.refl _) ((cachedMu_le h rd i _).bind fun mu1j => ?_)
    refine Le.ite ?_ ?_
    · refine (betweenLoop_le h rd _ _ _ _).bind fun mub => Le.ite (Le.refl _) ?_
      exact (Le.ite (h.x _ _ _ _ _ _ _) (h.x _ _ _ _ _ _ _)).bind fun v => Le.refl _
    · exact (betweenLoop_le h rd _ _ _ _).bind fun mub => (Le.ite (h.x _ _ _ _ _ _ _) (h.x _ _ _ _ _ _ _)).bind fun v => Le.refl _

theorem lineLoop_le {f g : Str → Tmp K → Outcome (Option K)} (hfg : ∀ t p, Le (f t p) (g t p)) (name : Str) :
    ∀ ls : List (Str × Tmp K), Le (lineLoop f name ls) (lineLoop g name ls)
  | [] => Le.refl _
  | (t, p) :: ls => by
    unfold lineLoop
    exact (hfg t p).bind fun v => (lineLoop_le hfg name ls).bind fun r => Le.refl _

theorem emissionLoop_le (h : EnvLe env env') (element : String) (thr : K) (j : Nat) (lines : List (Str × Tmp K))
    {f g : Emission K → SMap Str (Factor K) → Str → Tmp K → Outcome (Option K)} (hfg : ∀ em fs t p, Le (f em fs t p) (g em fs t p)) :
    ∀ ems : List (Emission K), Le (emissionLoop env element thr j lines f ems) (emissionLoop env' element thr j lines g ems)
  | [] => Le.refl _
  | em :: ems => by
    unfold emissionLoop
    refine Le.ite (emissionLoop_le h element thr j lines hfg ems) ((h.excite _ _ _).bind fun fs => ?_)
    exact (lineLoop_le (hfg em fs) _ lines).bind fun a => (emissionLoop_le h element thr j lines hfg ems).bind fun r => Le.refl _

theorem secondaryLoop_le (h : EnvLe env env') (rd : RayData K) (element : String) (thr : K) (i : Nat) (l : LayerData K)
    (muIn lw frac : K) (lines : List (Str × Tmp K)) : ∀ (n j : Nat),
    Le (secondaryLoop env rd element thr i l muIn lw frac lines j n) (secondaryLoop env' rd element thr i l muIn lw frac lines j n)
  | 0, _ => Le.refl _
  | n + 1, j => by
    unfold secondaryLoop
    rw [h.layers]
    refine (Le.refl _).bind fun ems => (Le.refl _).bind fun p => (Le.refl _).bind fun l2 => ?_
    refine Outcome.Le.bind (Le.ite ?_ (Le.ite (Le.refl _) ?_)) fun a =>
      (secondaryLoop_le h rd element thr i l muIn lw frac lines n (j + 1)).bind fun r => Le.refl _
    · exact emissionLoop_le h element thr j lines (fun em fs t p => intra_le h l muIn frac em fs t p) ems
    · exact emissionLoop_le h element thr j lines (fun em fs t p' => inter_le h rd i j l l2 _ frac em fs t p') ems

theorem deposit_le (h : EnvLe env env') (key : String) (i : Nat) (mf : K) : ∀ (ls : List (Str × Tmp K)) (res : Result K),
    Le (deposit env key i mf ls res) (deposit env' key i mf ls res)
  | [], _ => Le.refl _
  | (t, p) :: ls, res => by
    unfold deposit
    rw [h.hasDetector]
    exact Outcome.Le.bind (Le.ite (h.escape _) (Le.refl _)) fun esc => deposit_le h key i mf ls _

theorem primaryOf_eq (h : EnvLe env env') (l : LayerData K) (muIn lw frac : K) (p : Tmp K) :
    primaryOf env' l muIn lw frac p = primaryOf env l muIn lw frac p := by
  unfold primaryOf
  rw [h.sinIn, h.sinOut, h.exp]

theorem cell_le (h : EnvLe env env') (o : Options K) (rd : RayData K) (req : Request) (thr : K) (fs : SMap Str (Factor K)) (i : Nat)
    (l : LayerData K) (res : Result K) : Le (cell env o rd req thr fs i l res) (cell env' o rd req thr fs i l res) := by
  unfold cell
  refine Le.ite (Le.refl _) ?_
  dsimp only
  refine Le.ite (Le.refl _) ((openLines_le h _ _ _ _ _ _ _).bind fun q => ?_)
  obtain ⟨lines, res⟩ := q
  dsimp only
  refine Le.ite (Le.refl _) ((h.mu _ _).bind fun muIn => (Le.refl _).bind fun p => ?_)
  simp only [primaryOf_eq h, h.layers]
  refine Outcome.Le.bind (Le.ite (secondaryLoop_le h rd _ thr i l muIn _ _ _ _ _) (Le.refl _)) fun cs => ?_
  exact deposit_le h _ _ _ _ _

theorem cellLoop_le (h : EnvLe env env') (o : Options K) (rd : RayData K) (req : Request) (thr : K) (fs : SMap Str (Factor K)) :
    ∀ (ls : List (LayerData K)) (i : Nat) (res : Result K),
      Le (cellLoop env o rd req thr fs i ls res) (cellLoop env' o rd req thr fs i ls res)
  | [], _, _ => Le.refl _
  | l :: ls, i, res => by
    unfold cellLoop
    exact (cell_le h o rd req thr fs i l res).bind fun res => cellLoop_le h o rd req thr fs ls (i + 1) res

theorem thresholdOf_le (h : EnvLe env env') (req : Request) (n : Nat) (thrs : List K) :
    Le (thresholdOf env req n thrs) (thresholdOf env' req n thrs) := by
  unfold thresholdOf
  refine Le.ite (Le.refl _) ?_
  split
  · exact Le.refl _
  · exact (h.threshold _ _).bind fun t => Le.refl _

theorem requestLoop_le (h : EnvLe env env') (o : Options K) (rd : RayData K) : ∀ (qs : List (Outcome Request)) (n : Nat)
    (thrs : List K) (res : Result K), Le (requestLoop env o rd n qs thrs res) (requestLoop env' o rd n qs thrs res)
  | [], _, _, _ => Le.refl _
  | q :: qs, n, thrs, res => by
    unfold requestLoop
    refine (Le.refl _).bind fun req => (thresholdOf_le h req n thrs).bind fun p => ?_
    obtain ⟨thr, thrs⟩ := p
    dsimp only
    refine Le.ite (requestLoop_le h o rd qs _ _ _) ((h.excite _ _ _).bind fun fs => ?_)
    rw [h.layers]
    exact (cellLoop_le h o rd req thr fs _ _ _).bind fun res => requestLoop_le h o rd qs _ _ _

theorem rayLoop_le (h : EnvLe env env') (o : Options K) (reqs : List (Outcome Request)) : ∀ (rays : List (K × K)) (thrs : List K) (m : K)
    (res : Result K), Le (rayLoop env o reqs rays thrs m res) (rayLoop env' o reqs rays thrs m res)
  | [], _, _, _ => Le.refl _
  | (e, w) :: rays, thrs, m, res => by
    unfold rayLoop
    dsimp only
    refine Le.ite (rayLoop_le h o reqs rays _ _ _) ((rayData_le h o _ e w).bind fun rd => ?_)
    refine (requestLoop_le h o rd reqs _ _ _).bind fun p => ?_
    obtain ⟨thrs, res⟩ := p
    exact rayLoop_le h o reqs rays _ _ _

/-- The calculation gives the same result wherever it gave one. -/
theorem calculate_le (h : EnvLe env env') (o : Options K) (reqs : List (Outcome Request)) (rays : List (K × K)) :
    Le (calculate env o reqs rays) (calculate env' o reqs rays) := by
  unfold calculate
  exact (rayLoop_le h o reqs _ _ _ _).bind fun r => Le.refl _

end Multilayer
end Fisx
