import Verif.MultilayerBeam

/-!
# Property C46: additivity over the beam, and the union of C54
-/

set_option linter.unusedSectionVars false

namespace Fisx
namespace Multilayer

open Xrf (Request)

variable {K : Type} [Field K] [LinearOrder K] [IsStrictOrderedRing K]

/-- Primary and secondary excitation of an entry; a missing entry has none. -/
def excitation : Option (Leaf K) → K × K
  | none => 0
  | some l => (l.primary, l.secondary)

/-- The rate of an entry; a missing entry has none. -/
def rateOf : Option (Leaf K) → K
  | none => 0
  | some l => l.rate

/-- The elements of the requests have no blanks in their names. -/
def PlainElements (reqs : List Request) : Prop := ∀ req ∈ reqs, Plain req.element.toList

theorem canon_unique {env : Env K} {mix : Nat → K → Outcome (Mix K)} (hc : Consistent env mix) {r r' : Result K}
    (h : Canon env r) (h' : Canon env r') {k : String} {i : Nat} {t : Str} (ht : Plain t) {l l' : Leaf K}
    (hl : leaf? r k i t = some l) (hl' : leaf? r' k i t = some l') :
    l.energy = l'.energy ∧ l.mu = l'.mu ∧ l.efficiency = l'.efficiency := by
  obtain ⟨a1, ⟨L, a2, a3⟩, el, fam, e, w, fs, f, a4, a5, a6, a7, a8⟩ := h k i t l ht hl
  obtain ⟨b1, ⟨L', b2, b3⟩, el', fam', e', w', fs', f', b4, b5, b6, b7, b8⟩ := h' k i t l' ht hl'
  obtain ⟨rfl, -⟩ := key_inj a5 b5 (a4.symm.trans b4)
  have he : l.energy = l'.energy := by
    rw [← a8, ← b8]
    exact hc.energy _ _ _ _ _ _ _ t f f' a6 b6 a7 b7
  rw [a2] at b2
  obtain rfl := Option.some.inj b2
  rw [← he] at b1 b3
  rw [a1] at b1
  rw [a3] at b3
  simp only [Outcome.ok.injEq] at b1 b3
  exact ⟨he, b1, b3⟩

/-- Energy and efficiency of a line are the same in all calculations. -/
theorem uniform {env : Env K} {mix : Nat → K → Outcome (Mix K)} (hc : Consistent env mix) (hreg : Regular env)
    (o : Options K) (k : String) (i : Nat) (t : Str) (ht : Plain t) :
    ∃ en eff : K, ∀ reqs rays r l, PlainElements reqs → calculate env o (reqs.map .ok) rays = .ok r →
      leaf? r k i t = some l → l.energy = en ∧ l.efficiency = eff := by
  by_cases hx : ∃ reqs rays r l, PlainElements reqs ∧ calculate env o (reqs.map .ok) rays = .ok r ∧
      leaf? r k i t = some l
  · obtain ⟨reqs, rays, r, l, h1, h2, h3⟩ := hx
    refine ⟨l.energy, l.efficiency, ?_⟩
    intro reqs' rays' r' l' h1' h2' h3'
    have := canon_unique hc (calculate_amount hc hreg o reqs' h1' rays' r' h2').1
      (calculate_amount hc hreg o reqs h1 rays r h2).1 ht h3' h3
    exact ⟨this.1, this.2.2⟩
  · exact ⟨0, 0, fun reqs rays r l h1 h2 h3 => absurd ⟨reqs, rays, r, l, h1, h2, h3⟩ hx⟩

/-- The state before the tertiary excitation. -/
theorem calculate_inv {env : Env K} (hreg : Regular env) (o : Options K) (reqs : List (Outcome Request))
    (rays : List (K × K)) (r : Result K) (h : calculate env o reqs rays = .ok r) :
    ∃ r0, Inv env r0 ∧ (o.secondary ≤ 1 → r0 = r) ∧ ∀ k i u,
      excitation (leaf? r k i u) = excitation (leaf? r0 k i u) ∧
      (leaf? r k i u).map (fun l => (l.energy, l.efficiency)) = (leaf? r0 k i u).map (fun l => (l.energy, l.efficiency)) := by
  unfold calculate at h
  obtain ⟨r0, h1, h⟩ := Outcome.bind_eq_ok.mp h
  have hi := inv_rayLoop env hreg o reqs _ _ _ _ _ (inv_nil env) h1
  simp only [Outcome.pure_eq, Outcome.ok.injEq] at h
  refine ⟨r0, hi, ?_, ?_⟩
  · intro hs
    rw [if_neg (by omega)] at h
    exact h
  · intro k i u
    split at h
    · subst h
      rcases tertiary_leaf hi.sorted k i u with ⟨h2, h3⟩ | ⟨l0, l', h2, h3, rate, ter, rfl⟩
      · rw [h2, h3]; exact ⟨rfl, rfl⟩
      · rw [h2, h3]; exact ⟨rfl, rfl⟩
    · subst h; exact ⟨rfl, rfl⟩

theorem excitation_amount (o : Option (Leaf K)) : excitation o = ((amount o).1, (amount o).2.1) := by
  cases o <;> rfl

theorem name_cases (u : Str) : Plain u ∨ ∃ t m, Plain t ∧ u = escName t m := by
  by_cases h : ' ' ∈ u
  · obtain ⟨t, m, rfl, ht⟩ := List.eq_append_cons_of_mem h
    exact Or.inr ⟨t, m, ht, rfl⟩
  · exact Or.inl h

/-- Every entry is proportional to the excitation of a line, with factors that depend neither on the rays nor on the
requests. -/
theorem linear_form {env : Env K} {mix : Nat → K → Outcome (Mix K)} (hc : Consistent env mix) (hreg : Regular env)
    (o : Options K) (k : String) (i : Nat) (u : Str) : ∃ t, ∃ a c : K, Plain t ∧ ∀ reqs rays r, PlainElements reqs →
      calculate env o (reqs.map .ok) rays = .ok r →
      excitation (leaf? r k i u) = a • excitation (leaf? r k i t) ∧
      (o.secondary ≤ 1 → rateOf (leaf? r k i u) =
        c * ((excitation (leaf? r k i t)).1 + (excitation (leaf? r k i t)).2)) := by
  rcases name_cases u with hu | ⟨t, m, ht, rfl⟩
  · obtain ⟨en, eff, hun⟩ := uniform hc hreg o k i u hu
    by_cases hx : ∃ esc, escapesOf env en = .ok esc
    · obtain ⟨esc, he⟩ := hx
      refine ⟨u, 1, (1 - escapeTotal esc) * eff, hu, ?_⟩
      intro reqs rays r hp h
      refine ⟨by rw [one_smul], fun hs => ?_⟩
      cases hl : leaf? r k i u with
      | none => simp [rateOf, excitation]
      | some l =>
        have hf := calculate_final env hreg o (fun hh => absurd hs (by omega)) _ rays r h
        obtain ⟨h1, h2⟩ := hun reqs rays r l hp h hl
        obtain ⟨r0, hi, h3, -⟩ := calculate_inv hreg o _ rays r h
        have := h3 hs
        subst this
        obtain ⟨esc', hv⟩ := hi.line k i u l hu hl
        have h4 := hv.escapes
        rw [h1, he] at h4
        simp only [Outcome.ok.injEq] at h4
        subst h4
        simp only [rateOf, excitation]
        rw [hv.rate, h2]
        ring
    · refine ⟨u, 1, 0, hu, ?_⟩
      intro reqs rays r hp h
      refine ⟨by rw [one_smul], fun hs => ?_⟩
      cases hl : leaf? r k i u with
      | none => simp [rateOf, excitation]
      | some l =>
        obtain ⟨h1, h2⟩ := hun reqs rays r l hp h hl
        obtain ⟨r0, hi, h3, -⟩ := calculate_inv hreg o _ rays r h
        have := h3 hs
        subst this
        obtain ⟨esc', hv⟩ := hi.line k i u l hu hl
        exact absurd ⟨esc', h1 ▸ hv.escapes⟩ hx
  · obtain ⟨en, eff, hun⟩ := uniform hc hreg o k i t ht
    -- the line in the state before the tertiary excitation
    have hline : ∀ reqs rays r, PlainElements reqs → calculate env o (reqs.map .ok) rays = .ok r →
        ∃ r0, Inv env r0 ∧ (o.secondary ≤ 1 → r0 = r) ∧
          (∀ v, excitation (leaf? r k i v) = excitation (leaf? r0 k i v)) ∧
          ∀ l, leaf? r0 k i t = some l → l.energy = en ∧ l.efficiency = eff := by
      intro reqs rays r hp h
      obtain ⟨r0, hi, h3, h4⟩ := calculate_inv hreg o _ rays r h
      refine ⟨r0, hi, h3, fun v => (h4 k i v).1, ?_⟩
      intro l hl
      have h5 := (h4 k i t).2
      rw [hl, Option.map_some] at h5
      obtain ⟨l', h6, h7⟩ := Option.map_eq_some_iff.mp h5
      simp only [Prod.mk.injEq] at h7
      rw [← h7.1, ← h7.2]
      exact hun reqs rays r l' hp h h6
    by_cases hx : ∃ esc, escapesOf env en = .ok esc
    · obtain ⟨esc, he⟩ := hx
      let a : K := ((SMap.find? esc (String.ofList m)).map (fun e => e.rate)).getD 0
      refine ⟨t, a, a * eff, ht, ?_⟩
      intro reqs rays r hp h
      obtain ⟨r0, hi, h3, h4, h5⟩ := hline reqs rays r hp h
      rw [h4, h4]
      have key : excitation (leaf? r0 k i (escName t m)) = a • excitation (leaf? r0 k i t) ∧
          rateOf (leaf? r0 k i (escName t m)) = a * eff * ((excitation (leaf? r0 k i t)).1 +
            (excitation (leaf? r0 k i t)).2) := by
        cases hl : leaf? r0 k i t with
        | none =>
          rw [hi.orphan k i t m ht hl]
          simp [excitation, rateOf]
        | some l =>
          obtain ⟨h1, h2⟩ := h5 l hl
          obtain ⟨esc', hv⟩ := hi.line k i t l ht hl
          have h6 := hv.escapes
          rw [h1, he] at h6
          simp only [Outcome.ok.injEq] at h6
          subst h6
          rw [hv.peaks m]
          simp only [a]
          cases SMap.find? esc (String.ofList m) with
          | none => simp [excitation, rateOf]
          | some e =>
            simp only [Option.map_some, excitation, escLeaf, rateOf, Option.getD_some, Prod.smul_mk, smul_eq_mul,
              true_and, h2]
            ring
      refine ⟨key.1, fun hs => ?_⟩
      have := h3 hs
      subst this
      exact key.2
    · refine ⟨t, 0, 0, ht, ?_⟩
      intro reqs rays r hp h
      obtain ⟨r0, hi, h3, h4, h5⟩ := hline reqs rays r hp h
      have hnone : leaf? r0 k i (escName t m) = none := by
        cases hl : leaf? r0 k i t with
        | none => exact hi.orphan k i t m ht hl
        | some l =>
          obtain ⟨esc', hv⟩ := hi.line k i t l ht hl
          exact absurd ⟨esc', (h5 l hl).1 ▸ hv.escapes⟩ hx
      rw [h4, h4, hnone]
      refine ⟨by simp [excitation], fun hs => ?_⟩
      have := h3 hs
      subst this
      rw [hnone]
      simp [rateOf]

/-- C46, the sum over the rays: the excitation of an entry is a sum of terms, one for each ray, that depend on the ray
only; without tertiary excitation the same holds for the rates. -/
theorem C46_sum_of_rays (env : Env K) (mix : Nat → K → Outcome (Mix K)) (hc : Consistent env mix) (hreg : Regular env)
    (o : Options K) (reqs : List Request) (hp : PlainElements reqs) (k : String) (i : Nat) (u : Str) :
    ∃ (g : K × K → K × K) (q : K × K → K), ∀ rays r, calculate env o (reqs.map .ok) rays = .ok r →
      excitation (leaf? r k i u) = (rays.map g).sum ∧
      (o.secondary ≤ 1 → rateOf (leaf? r k i u) = (rays.map q).sum) := by
  obtain ⟨t, a, c, ht, hlin⟩ := linear_form hc hreg o k i u
  obtain ⟨g, -, hg⟩ := amount_fun hc hreg o reqs hp k i t ht
  refine ⟨fun ray => a • ((g ray).1, (g ray).2.1), fun ray => c * ((g ray).1 + (g ray).2.1), ?_⟩
  intro rays r h
  obtain ⟨h1, h2⟩ := hlin reqs rays r hp h
  have h3 := hg rays r h
  have h4 : ∀ l : List (K × K), ((l.map g).sum.1, (l.map g).sum.2.1) =
      (l.map (fun ray => ((g ray).1, (g ray).2.1))).sum := by
    intro l
    induction l with
    | nil => rfl
    | cons x l ih =>
      rw [List.map_cons, List.map_cons, List.sum_cons, List.sum_cons, ← ih]
      rfl
  have h5 : excitation (leaf? r k i t) = (rays.map (fun ray => ((g ray).1, (g ray).2.1))).sum := by
    rw [excitation_amount, h3, h4]
  refine ⟨?_, fun hs => ?_⟩
  · rw [h1, h5, List.smul_sum, List.map_map]
    rfl
  · rw [h2 hs, h5]
    clear h1 h2 h3 h4 h5 h
    induction rays with
    | nil => simp
    | cons x l ih =>
      rw [List.map_cons, List.sum_cons, List.map_cons, List.sum_cons, ← ih]
      simp only [Prod.fst_add, Prod.snd_add]
      ring

/-- C46, additivity: excitation and rates expected for a beam are the sums of those expected for each ray separately. -/
theorem C46_additive (env : Env K) (mix : Nat → K → Outcome (Mix K)) (hc : Consistent env mix) (hreg : Regular env)
    (o : Options K) (reqs : List Request) (hp : PlainElements reqs) (rays : List (K × K)) (r : Result K)
    (h : calculate env o (reqs.map .ok) rays = .ok r) (rs : List (Result K))
    (hrs : List.Forall₂ (fun ray r' => calculate env o (reqs.map .ok) [ray] = .ok r') rays rs)
    (k : String) (i : Nat) (u : Str) :
    excitation (leaf? r k i u) = (rs.map (fun r' => excitation (leaf? r' k i u))).sum ∧
    (o.secondary ≤ 1 → rateOf (leaf? r k i u) = (rs.map (fun r' => rateOf (leaf? r' k i u))).sum) := by
  obtain ⟨g, q, hg⟩ := C46_sum_of_rays env mix hc hreg o reqs hp k i u
  obtain ⟨h1, h2⟩ := hg rays r h
  have h3 : rs.map (fun r' => excitation (leaf? r' k i u)) = rays.map g ∧
      (o.secondary ≤ 1 → rs.map (fun r' => rateOf (leaf? r' k i u)) = rays.map q) := by
    clear h h1 h2
    induction hrs with
    | nil => exact ⟨rfl, fun _ => rfl⟩
    | cons a1 a2 ih =>
      obtain ⟨b1, b2⟩ := hg _ _ a1
      refine ⟨by rw [List.map_cons, List.map_cons, ih.1, b1]; simp, fun hs => ?_⟩
      rw [List.map_cons, List.map_cons, ih.2 hs, b2 hs]; simp
  refine ⟨by rw [h1, h3.1], fun hs => by rw [h2 hs, h3.2 hs]⟩

/-- C46, order: the order of the rays does not matter. -/
theorem C46_order (env : Env K) (mix : Nat → K → Outcome (Mix K)) (hc : Consistent env mix) (hreg : Regular env)
    (o : Options K) (reqs : List Request) (hp : PlainElements reqs) (rays rays' : List (K × K))
    (hperm : rays.Perm rays') (r r' : Result K) (h : calculate env o (reqs.map .ok) rays = .ok r)
    (h' : calculate env o (reqs.map .ok) rays' = .ok r') (k : String) (i : Nat) (u : Str) :
    excitation (leaf? r k i u) = excitation (leaf? r' k i u) ∧
    (o.secondary ≤ 1 → rateOf (leaf? r k i u) = rateOf (leaf? r' k i u)) := by
  obtain ⟨g, q, hg⟩ := C46_sum_of_rays env mix hc hreg o reqs hp k i u
  obtain ⟨h1, h2⟩ := hg rays r h
  obtain ⟨h1', h2'⟩ := hg rays' r' h'
  refine ⟨by rw [h1, h1']; exact (hperm.map g).sum_eq, fun hs => ?_⟩
  rw [h2 hs, h2' hs]
  exact (hperm.map q).sum_eq

/-- C46, weights: with `c` times the weights, `c` times the excitation and the rates. -/
theorem C46_scale (env : Env K) (mix : Nat → K → Outcome (Mix K)) (hc : Consistent env mix) (hreg : Regular env)
    (o : Options K) (reqs : List Request) (hp : PlainElements reqs) (c : K) (hpos : 0 < c) (hlin : LinearIn env c)
    (rays : List (K × K)) (r r' : Result K) (h : calculate env o (reqs.map .ok) rays = .ok r)
    (h' : calculate env o (reqs.map .ok) (rays.map (fun ray => (ray.1, c * ray.2))) = .ok r')
    (k : String) (i : Nat) (u : Str) :
    excitation (leaf? r' k i u) = c • excitation (leaf? r k i u) ∧
    (o.secondary ≤ 1 → rateOf (leaf? r' k i u) = c * rateOf (leaf? r k i u)) := by
  obtain ⟨t, a, b, ht, hform⟩ := linear_form hc hreg o k i u
  obtain ⟨f1, f2⟩ := hform reqs _ r hp h
  obtain ⟨f1', f2'⟩ := hform reqs _ r' hp h'
  obtain ⟨ys, y1, y2⟩ := (calculate_amount hc hreg o reqs hp _ r h).2 k i t ht
  obtain ⟨zs, z1, z2⟩ := (calculate_amount hc hreg o reqs hp _ r' h').2 k i t ht
  have hz : zs = ys.map (fun y => c • y) := by
    rw [← List.map_reverse] at z1
    generalize rays.reverse = rs at y1 z1
    clear y2 z2 f1 f2 f1' f2' h h'
    induction y1 generalizing zs with
    | nil => cases z1; rfl
    | cons a1 a2 ih =>
      rename_i ray y rs' ys'
      obtain ⟨e, w⟩ := ray
      rw [List.map_cons] at z1
      cases z1 with
      | cons b1 b2 =>
        rw [List.map_cons, ← ih _ b2, rayYield_scale hc hreg o c hpos hlin k i t e w reqs y _ a1 b1]
  have hsum : amount (leaf? r' k i t) = c • amount (leaf? r k i t) := by
    rw [y2, z2, hz, List.smul_sum]
  have hex : excitation (leaf? r' k i t) = c • excitation (leaf? r k i t) := by
    rw [excitation_amount, excitation_amount, hsum]
    rfl
  refine ⟨by rw [f1', f1, hex, smul_comm], fun hs => ?_⟩
  rw [f2' hs, f2 hs, hex]
  simp only [Prod.smul_fst, Prod.smul_snd, smul_eq_mul]
  ring

/-- C46, thresholds: a ray below the thresholds of all requests contributes nothing. -/
theorem C46_below_threshold (env : Env K) (mix : Nat → K → Outcome (Mix K)) (hc : Consistent env mix)
    (hreg : Regular env) (o : Options K) (reqs : List Request) (hp : PlainElements reqs) (ray : K × K)
    (hlow : ∀ req ∈ reqs, ∀ thr, thresholdFor env req = .ok thr → ray.1 < thr) (rays rays' : List (K × K))
    (r r' : Result K) (h : calculate env o (reqs.map .ok) (rays ++ ray :: rays') = .ok r)
    (h' : calculate env o (reqs.map .ok) (rays ++ rays') = .ok r') (k : String) (i : Nat) (u : Str) :
    excitation (leaf? r k i u) = excitation (leaf? r' k i u) ∧
    (o.secondary ≤ 1 → rateOf (leaf? r k i u) = rateOf (leaf? r' k i u)) := by
  obtain ⟨t, a, b, ht, hform⟩ := linear_form hc hreg o k i u
  obtain ⟨f1, f2⟩ := hform reqs _ r hp h
  obtain ⟨f1', f2'⟩ := hform reqs _ r' hp h'
  obtain ⟨g, g0, hg⟩ := amount_fun hc hreg o reqs hp k i t ht
  have hz : g ray = 0 := by
    refine (g0 ray 0 ⟨reqs.map (fun _ => 0), ?_, by simp⟩).symm
    rw [List.forall₂_map_right_iff, List.forall₂_same]
    exact fun req hreq => Or.inl ⟨hlow req hreq, rfl⟩
  have hex : excitation (leaf? r k i t) = excitation (leaf? r' k i t) := by
    rw [excitation_amount, excitation_amount, hg _ r h, hg _ r' h']
    simp [hz]
  refine ⟨by rw [f1, f1', hex], fun hs => by rw [f2 hs, f2' hs, hex]⟩

/-! ## C54: several requests -/

theorem reqYield_other {env : Env K} {o : Options K} {k : String} {i : Nat} {t : Str} {ray : K × K} {req : Request}
    {y : Amount K} (hk : keyOf req ≠ k) (h : ReqYield env o k i t ray req y) : y = 0 := by
  rcases h with ⟨-, h⟩ | ⟨thr, fs, m, rd, -, -, -, -, -, ⟨-, h⟩ | ⟨h, -⟩⟩
  · exact h
  · exact h
  · exact absurd h hk

theorem reqYields_other {env : Env K} {o : Options K} {k : String} {i : Nat} {t : Str} {ray : K × K} :
    ∀ {reqs : List Request} {ys : List (Amount K)}, (∀ req ∈ reqs, keyOf req ≠ k) →
      List.Forall₂ (ReqYield env o k i t ray) reqs ys → ys.sum = 0 := by
  intro reqs ys hk h
  induction h with
  | nil => rfl
  | cons a1 a2 ih =>
    rw [List.sum_cons, reqYield_other (hk _ (List.mem_cons_self ..)) a1,
      ih (fun req hr => hk req (List.mem_cons_of_mem _ hr)), add_zero]

theorem rayYield_restrict {env : Env K} {o : Options K} {i : Nat} {t : Str} {ray : K × K} {req : Request} :
    ∀ {reqs : List Request} {y : Amount K}, (reqs.map keyOf).Nodup → req ∈ reqs →
      RayYield env o (keyOf req) i t reqs ray y → RayYield env o (keyOf req) i t [req] ray y := by
  intro reqs
  induction reqs with
  | nil => intro y _ h; simp at h
  | cons x rest ih =>
    intro y hnd hm h
    rw [List.map_cons, List.nodup_cons] at hnd
    obtain ⟨ys, h1, rfl⟩ := h
    cases h1 with
    | cons a1 a2 =>
      rename_i z zs
      rcases List.mem_cons.mp hm with rfl | hm
      · have h0 := reqYields_other (k := keyOf req) (fun q hq hk => hnd.1 (List.mem_map.mpr ⟨q, hq, hk⟩)) a2
        rw [List.sum_cons, h0, add_zero]
        exact ⟨[z], List.Forall₂.cons a1 List.Forall₂.nil, by simp⟩
      · have hz : z = 0 := reqYield_other (fun hk => hnd.1 (List.mem_map.mpr ⟨req, hm, hk.symm⟩)) a1
        rw [List.sum_cons, hz, zero_add]
        exact ih hnd.2 hm ⟨zs, a2, rfl⟩

/-- C99, union: if no two requests have the same key "Element Family", the answer to several requests is, for each of
them, the answer to the single request. -/
theorem C99_union_partial (env : Env K) (mix : Nat → K → Outcome (Mix K)) (hc : Consistent env mix)
    (hreg : Regular env) (o : Options K) (reqs : List Request) (hp : PlainElements reqs)
    (hnd : (reqs.map (fun q => q.element ++ " " ++ q.family)).Nodup) (req : Request) (hm : req ∈ reqs)
    (rays : List (K × K)) (r r' : Result K) (h : calculate env o (reqs.map .ok) rays = .ok r)
    (h' : calculate env o [.ok req] rays = .ok r') (i : Nat) (u : Str) :
    excitation (leaf? r (req.element ++ " " ++ req.family) i u) =
      excitation (leaf? r' (req.element ++ " " ++ req.family) i u) ∧
    (o.secondary ≤ 1 → rateOf (leaf? r (req.element ++ " " ++ req.family) i u) =
      rateOf (leaf? r' (req.element ++ " " ++ req.family) i u)) := by
  change excitation (leaf? r (keyOf req) i u) = excitation (leaf? r' (keyOf req) i u) ∧
    (o.secondary ≤ 1 → rateOf (leaf? r (keyOf req) i u) = rateOf (leaf? r' (keyOf req) i u))
  have hp' : PlainElements [req] := by
    intro q hq
    rw [List.mem_singleton.mp hq]
    exact hp req hm
  obtain ⟨t, a, b, ht, hform⟩ := linear_form hc hreg o (keyOf req) i u
  obtain ⟨f1, f2⟩ := hform reqs _ r hp h
  obtain ⟨f1', f2'⟩ := hform [req] _ r' hp' h'
  obtain ⟨ys, y1, y2⟩ := (calculate_amount hc hreg o reqs hp _ r h).2 (keyOf req) i t ht
  obtain ⟨zs, z1, z2⟩ := (calculate_amount hc hreg o [req] hp' _ r' h').2 (keyOf req) i t ht
  have hz : ys = zs := by
    generalize rays.reverse = rs at y1 z1
    clear y2 z2 f1 f2 f1' f2' h h'
    induction y1 generalizing zs with
    | nil => cases z1; rfl
    | cons a1 a2 ih =>
      cases z1 with
      | cons b1 b2 =>
        rw [ih _ b2, rayYield_unique hc hreg o (keyOf req) i t [req] _ _ _ b1
          (rayYield_restrict hnd hm a1)]
  have hex : excitation (leaf? r (keyOf req) i t) = excitation (leaf? r' (keyOf req) i t) := by
    rw [excitation_amount, excitation_amount, y2, z2, hz]
  refine ⟨by rw [f1, f1', hex], fun hs => by rw [f2 hs, f2' hs, hex]⟩

/-! ### The hypotheses hold in the example, and what is false without them -/

theorem exEnv_consistent : Consistent exEnv (fun _ e => .ok (exMix e)) := by
  refine ⟨fun i e => rfl, ?_, ?_, ?_⟩
  · intro i es ms h
    rw [← h]
    show _ = Outcome.ok (es.map exMix)
    clear h
    induction es with
    | nil => rfl
    | cons e es ih => rw [collect, ih]; rfl
  · intro el e w fs e' w' fs' t f f' h h' hf hf'
    simp only [exEnv] at h h'
    split at h
    · rename_i hel
      rw [if_pos hel] at h'
      simp only [Outcome.ok.injEq] at h h'
      subst h h'
      simp only [SMap.find?] at hf hf'
      split at hf
      · simp_all
        rw [← hf, ← hf']
      · split at hf
        · simp_all
          rw [← hf, ← hf']
        · cases hf
    · rename_i hel
      rw [if_neg hel] at h'
      split at h
      · rename_i hel2
        rw [if_pos hel2] at h'
        simp only [Outcome.ok.injEq] at h h'
        subst h h'
        simp only [SMap.find?] at hf hf'
        split at hf
        · simp_all
          rw [← hf, ← hf']
        · cases hf
      · cases h
  · intro el fam thr h
    simp only [exEnv] at h
    split at h
    · simp only [Outcome.ok.injEq] at h
      rw [← h]; norm_num
    · simp only [Outcome.ok.injEq] at h
      rw [← h]; norm_num

theorem exEnv_linear (c : ℚ) : LinearIn exEnv c := by
  intro el e w fs fs' h h'
  simp only [exEnv] at h h'
  split at h
  · rename_i hel
    rw [if_pos hel] at h'
    simp only [Outcome.ok.injEq] at h h'
    subst h h'
    simp only [List.map_cons, List.map_nil, scaleFactor, mul_div_assoc]
  · rename_i hel
    rw [if_neg hel] at h'
    split at h
    · rename_i hel2
      rw [if_pos hel2] at h'
      simp only [Outcome.ok.injEq] at h h'
      subst h h'
      simp only [List.map_cons, List.map_nil, scaleFactor, mul_div_assoc]
    · cases h

/-- The requests of the example. -/
def exRequests : List Request :=
  [{ element := "Cr", family := "K", layer := -1 }, { element := "Fe", family := "K", layer := -1 }]

/-- The rate of the chromium line in the first layer of the example. -/
def exRate (secondary : Int) (reqs : List Request) (rays : List (ℚ × ℚ)) : Option ℚ :=
  match calculate exEnv { secondary := secondary, useMassFractions := true, limit := 0 } (reqs.map .ok) rays with
  | .ok r => some (rateOf (leaf? r "Cr K" 0 "KL3".toList))
  | _ => none

example : PlainElements exRequests := by unfold PlainElements; decide +kernel

example : (exRequests.map (fun q => q.element ++ " " ++ q.family)).Nodup := by decide +kernel

-- two rays, together and alone, in both orders, with three times the weights and with a ray below the threshold
example : exRate 1 exRequests [(10, 1), (13 / 2, 5)] = some (286349999322639 / 2454974241500000) ∧
    exRate 1 exRequests [(10, 1)] = some (128031994881 / 6564102250000) ∧
    exRate 1 exRequests [(13 / 2, 5)] = some (85372707 / 878900000) ∧
    (286349999322639 / 2454974241500000 : ℚ) = 128031994881 / 6564102250000 + 85372707 / 878900000 ∧
    exRate 1 exRequests [(13 / 2, 5), (10, 1)] = some (286349999322639 / 2454974241500000) ∧
    exRate 1 exRequests [(10, 3), (13 / 2, 15)] = some (3 * (286349999322639 / 2454974241500000)) ∧
    exRate 1 exRequests [(10, 1), (5, 7), (13 / 2, 5)] = some (286349999322639 / 2454974241500000) ∧
    exRate 1 [{ element := "Cr", family := "K", layer := -1 }] [(10, 1), (13 / 2, 5)] =
      some (286349999322639 / 2454974241500000) := by decide +kernel

/-- C66 is false with tertiary excitation: the factors applied to the secondary excitation are calculated
for the whole beam, and a ray that does not excite iron takes part in them. -/
theorem C66_tertiary_rates_violated : ∃ a b c : ℚ, exRate 2 exRequests [(10, 1), (13 / 2, 5)] = some a ∧
    exRate 2 exRequests [(10, 1)] = some b ∧ exRate 2 exRequests [(13 / 2, 5)] = some c ∧ a > b + c :=
  ⟨26341501174572021 / 216037733252000000, 6406396379790321 / 314236702912000000, 85372707 / 878900000,
    by decide +kernel, by decide +kernel, by decide +kernel, by decide +kernel⟩

/-- C99 is false if two requests have the same element and family: they share one entry of the answer, to which both add.
A line asked for twice has twice its rate, and so has one asked for in all layers and in one of them. -/
theorem C99_union_violated : ∃ a : ℚ, a > 0 ∧
    exRate 1 [{ element := "Cr", family := "K", layer := -1 }] [(13 / 2, 5)] = some a ∧
    exRate 1 [{ element := "Cr", family := "K", layer := -1 }, { element := "Cr", family := "K", layer := -1 }]
      [(13 / 2, 5)] = some (2 * a) ∧
    exRate 1 [{ element := "Cr", family := "K", layer := -1 }, { element := "Cr", family := "K", layer := 0 }]
      [(13 / 2, 5)] = some (2 * a) :=
  ⟨85372707 / 878900000, by decide +kernel, by decide +kernel, by decide +kernel, by decide +kernel⟩

end Multilayer
end Fisx
