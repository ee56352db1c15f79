import Verif.InitTables

/-!
# The shell data of a constructed library (property C123)
-/

set_option linter.unusedSectionVars false

namespace Fisx
namespace Init

open Loader

variable {K : Type} [Field K] [LinearOrder K] [IsStrictOrderedRing K]

/-! ## Specification -/

/-- The name under which a radiative transition is kept: in capitals, with a 2 after names of two characters and the first
four characters of names of five (but TOTAL). -/
def lineName (label : Str) : Str :=
  let t := label.upper
  let t := if t.length = 2 then t ++ ['2'] else t
  if t.length = 5 ∧ t ≠ "TOTAL".toList then t.take 4 else t

/-- The rates `rates` are kept in `kept`, under the names `name`: what is kept is one of the rates of that name, and all
those without a homonym are kept. -/
def Kept (name : Str → Str) (rates kept : SMap Str K) : Prop :=
  (∀ label v, rates.find? label = some v →
    (∀ label' v', rates.find? label' = some v' → name label' = name label → label' = label) →
    kept.find? (name label) = some v) ∧
  ∀ k v, kept.find? k = some v → ∃ label, name label = k ∧ rates.find? label = some v

/-- Like `Kept`; TOTAL, the sum of the rates that are kept, is added if there is none. -/
def KeptTotal (name : Str → Str) (rates kept : SMap Str K) : Prop :=
  ∃ m, Kept name rates m ∧
    ∀ k, kept.find? k = if k = "TOTAL".toList ∧ m.find? k = none then some (m.map Prod.snd).sum else m.find? k

/-- The file of a kind of data for a main shell. -/
def fileOf : Kind → String → String
  | .constants, main => "EADL97_" ++ main ++ "ShellConstants.dat"
  | .radiative, main => "EADL97_" ++ main ++ "ShellRadiativeRates.dat"
  | .nonradiative, main => "EADL97_" ++ main ++ "ShellNonradiativeRates.dat"

/-! ## What a load leaves -/

/-- One of the three maps of a shell. -/
def field : Kind → Shell K → SMap Str K
  | .constants, s => s.constants
  | .radiative, s => s.radiative
  | .nonradiative, s => s.nonradiative

/-- One of the three maps of a shell of an element, if it has the shell. -/
def view (kind : Kind) (sub : Str) (e : Element K) : Option (SMap Str K) := (e.shells.find? sub).map (field kind)

theorem apply_frame {kind kind' : Kind} {sub sub' : Str} {e e' : Element K} {d : SMap Str K}
    (h : kind'.apply sub' e d = (.ok (), e')) (hne : kind' ≠ kind ∨ sub' ≠ sub) : view kind sub e' = view kind sub e := by
  by_cases hs : sub' = sub
  · subst hs
    have hk : kind' ≠ kind := by
      rcases hne with hk | hk
      · exact hk
      · exact absurd rfl hk
    have ins : ∀ (s s' : Shell K), e.shells.find? sub' = some s → field kind s' = field kind s →
        view kind sub' { e with shells := e.shells.insert sub' s' } = view kind sub' e := by
      intro s s' h1 h2
      unfold view
      simp only
      rw [SMap.find?_insert, if_pos rfl, h1, Option.map_some, Option.map_some, h2]
    cases kind' with
    | constants =>
      obtain ⟨sh, c, h1, -, h3⟩ := setShellConstants_ok h
      have := ins sh { sh with constants := c } h1 (by cases kind with
        | constants => exact absurd rfl hk
        | _ => rfl)
      unfold view at this ⊢
      rw [h3]
      exact this
    | radiative =>
      unfold Kind.apply Element.setRadiativeMap at h
      dsimp only at h
      split_ifs at h with hb
      · split at h
        · rename_i s hs
          split at h
          · rename_i hr
            have h := (congrArg Prod.snd h)
            simp only at h
            subst h
            have hsh : e.shells.find? sub' = some s := by
              unfold Element.checkSubshell at hs
              split at hs
              · cases hs
              · split_ifs at hs
                split at hs
                · cases hs
                · rename_i hf; simp only [Outcome.ok.injEq] at hs; rw [← hs]; exact hf
            refine ins s _ hsh ?_
            unfold Shell.setRadiativeMap Shell.setRadiative
            split <;> (cases kind with
              | radiative => exact absurd rfl hk
              | _ => rfl)
          · rename_i o hno
            exact absurd (congrArg Prod.fst h) hno
        all_goals cases h
      · obtain rfl : e = e' := congrArg Prod.snd h
        rfl
    | nonradiative =>
      unfold Kind.apply Element.setNonradiativeMap Element.setNonradiative at h
      dsimp only at h
      split_ifs at h with hb
      · split at h
        · rename_i s hs
          split at h
          · rename_i hr
            have h := (congrArg Prod.snd h)
            simp only at h
            subst h
            have hsh : e.shells.find? sub' = some s := by
              unfold Element.checkSubshell at hs
              split at hs
              · cases hs
              · split_ifs at hs
                split at hs
                · cases hs
                · rename_i hf; simp only [Outcome.ok.injEq] at hs; rw [← hs]; exact hf
            refine ins s _ hsh ?_
            unfold Shell.setNonradiative
            split <;> (cases kind with
              | nonradiative => exact absurd rfl hk
              | _ => rfl)
          · rename_i o hno
            exact absurd (congrArg Prod.fst h) hno
        all_goals cases h
      · obtain rfl : e = e' := congrArg Prod.snd h
        rfl
  · have := (apply_only kind' [sub'] sub' (by simp) ⟨"", 0, e⟩ d).others sub (by simpa using fun h => hs h.symm)
    rw [h] at this
    unfold view
    rw [show e'.shells.find? sub = e.shells.find? sub from this]

theorem apply_binding {kind : Kind} {sub : Str} {e e' : Element K} {d : SMap Str K}
    (h : kind.apply sub e d = (.ok (), e')) : e'.binding = e.binding := by
  have := (apply_only kind [sub] sub (by simp) ⟨"", 0, e⟩ d).binding
  rw [h] at this
  exact this

theorem performed_frame {kind kind' : Kind} {sub : Str} {e e' : Element K} {calls : List (Str × SMap Str K)}
    (h : Performed kind' e calls e') (hne : kind' ≠ kind ∨ sub ∉ calls.map Prod.fst) :
    view kind sub e' = view kind sub e := by
  induction h with
  | nil => rfl
  | cons h1 _ ih =>
    rw [ih (hne.imp id (fun h => fun h' => h (by simp [h']))),
      apply_frame h1 (hne.imp id (fun h => fun h' => h (by simp [h'])))]

theorem performed_at {kind : Kind} {sub : Str} {d : SMap Str K} {e e' : Element K} {calls : List (Str × SMap Str K)}
    (h : Performed kind e calls e') (hnd : (calls.map Prod.fst).Nodup) (hc : (sub, d) ∈ calls) :
    ∃ a b, kind.apply sub a d = (.ok (), b) ∧ view kind sub a = view kind sub e ∧ view kind sub b = view kind sub e' ∧
      a.binding = e.binding := by
  induction h with
  | nil => simp at hc
  | cons h1 h2 ih =>
    rename_i e e1 e2 sub0 d0 rest
    simp only [List.map_cons, List.nodup_cons] at hnd
    rcases List.mem_cons.1 hc with hc | hc
    · simp only [Prod.mk.injEq] at hc
      obtain ⟨rfl, rfl⟩ := hc
      exact ⟨_, _, h1, rfl, (performed_frame h2 (Or.inr hnd.1)).symm, rfl⟩
    · obtain ⟨a, b, g1, g2, g3, g4⟩ := ih hnd.2 hc
      have hne : sub0 ≠ sub := by
        rintro rfl
        exact hnd.1 (List.mem_map_of_mem hc)
      exact ⟨a, b, g1, g2.trans (apply_frame h1 (Or.inr hne)), g3, g4.trans (apply_binding h1)⟩

theorem callsFor_none (kind : Kind) (n : Nat) : ∀ (subs : List Str) (scans : List (Scan K)) (i : Nat) (sub : Str)
    (scan : Scan K), subs.Nodup → subs[i]? = some sub → scans[i]? = some scan → scan.rows[n]? = none →
    sub ∉ (callsFor kind n subs scans).map Prod.fst
  | [], _, i, sub, scan, _, h1, _, _ => by simp at h1
  | _ :: _, [], i, sub, scan, _, _, h2, _ => by simp at h2
  | s :: subs, c :: scans, 0, sub, scan, hnd, h1, h2, h3 => by
    simp only [List.getElem?_cons_zero, Option.some.injEq] at h1 h2
    subst h1 h2
    unfold callsFor
    rw [h3]
    simp only
    intro h
    exact (List.nodup_cons.1 hnd).1 ((callsFor_sublist kind n subs scans).subset h)
  | s :: subs, c :: scans, i + 1, sub, scan, hnd, h1, h2, h3 => by
    rw [List.getElem?_cons_succ] at h1 h2
    have := callsFor_none kind n subs scans i sub scan (List.nodup_cons.1 hnd).2 h1 h2 h3
    have hne : s ≠ sub := by
      rintro rfl
      exact (List.nodup_cons.1 hnd).1 (List.mem_of_getElem? h1)
    unfold callsFor
    split
    · simp only [List.map_cons, List.mem_cons, not_or]
      exact ⟨hne.symm, this⟩
    · exact this

theorem mains_disjoint {main main' : String} {subs subs' : List Str} {sub : Str} (h : subshellsOf main = some subs)
    (h' : subshellsOf main' = some subs') (h1 : sub ∈ subs) (h2 : sub ∈ subs') : main = main' := by
  unfold subshellsOf at h h'
  split_ifs at h h' with a1 a2 a3 a4 a5 a6 a7 a8 a9 <;> simp only [Option.some.injEq] at h h' <;> subst h <;> subst h' <;>
    simp_all <;> revert h1 h2 <;> simp <;> aesop

/-- A load of other data leaves the map of a subshell. -/
theorem load_frame {kind kind' : Kind} {main main' : String} {subs : List Str} {sub : Str} {strtod : Str → K} {s s' : State K}
    {file : String} {text : Option Str} (h : load kind' strtod s main' file text = (.ok (), s'))
    (hsubs : subshellsOf main = some subs) (hsub : sub ∈ subs) (hne : (kind', main') ≠ (kind, main)) {n : Nat} {e : LibElement K}
    (he : s.elements[n]? = some e) : ∃ e', s'.elements[n]? = some e' ∧ view kind sub e'.data = view kind sub e.data ∧
      e'.data.binding = e.data.binding := by
  obtain ⟨subs', scans, h1, h2, h3, _, h5, -⟩ := loadCalls kind' strtod s s' main' file text h
  obtain ⟨e', h6, h7⟩ := h5 n e he
  obtain ⟨e2, h8, h9⟩ := forall₂_get ((loadFailed kind' strtod s main' file text).1 subs' h1) he
  rw [h] at h8
  simp only at h8
  rw [h7] at h8
  obtain rfl := Option.some.inj h8
  refine ⟨_, h7, performed_frame h6 ?_, h9.binding⟩
  by_cases hk : kind' = kind
  · subst hk
    right
    intro hm
    exact hne (by rw [mains_disjoint hsubs h1 hsub ((callsFor_sublist kind' n subs' scans).subset hm)])
  · exact Or.inl hk

theorem loadFiles_frame {kind : Kind} {main : String} {subs : List Str} {sub : Str} {strtod : Str → K} {fs : Files} {dir : String}
    (hsubs : subshellsOf main = some subs) (hsub : sub ∈ subs) : ∀ (l : List (Kind × String × String)) (s s' : State K),
    loadFiles strtod fs dir l s = .ok s' → (kind, main) ∉ l.map (fun x => (x.1, x.2.1)) → ∀ (n : Nat) (e : LibElement K),
    s.elements[n]? = some e → ∃ e', s'.elements[n]? = some e' ∧ view kind sub e'.data = view kind sub e.data ∧
      e'.data.binding = e.data.binding := by
  intro l
  induction l with
  | nil => intro s s' h _ n e he; cases h; exact ⟨e, he, rfl, rfl⟩
  | cons x l ih =>
    obtain ⟨k', m', f'⟩ := x
    intro s s' h hne n e he
    obtain ⟨s1, _, h1, h2⟩ := loadFiles_cons h
    simp only [List.map_cons, List.mem_cons, not_or] at hne
    obtain ⟨e1, a1, a2, a3⟩ := load_frame h1 hsubs hsub (fun h => hne.1 h.symm) he
    obtain ⟨e2, b1, b2, b3⟩ := ih s1 s' h2 hne.2 n e1 a1
    exact ⟨e2, b1, b2.trans a2, b3.trans a3⟩

/-- The load of a file among others. -/
theorem loadFiles_one {kind : Kind} {main file : String} {subs : List Str} {sub : Str} {strtod : Str → K} {fs : Files}
    {dir : String} (hsubs : subshellsOf main = some subs) (hsub : sub ∈ subs) :
    ∀ (l : List (Kind × String × String)) (s s' : State K), loadFiles strtod fs dir l s = .ok s' →
    (l.map (fun x => (x.1, x.2.1))).Nodup → (kind, main, file) ∈ l → ∃ s1 s2,
      load kind strtod s1 main (dir ++ "//" ++ file) (fs (dir ++ "//" ++ file)) = (.ok (), s2) ∧
      ∀ (n : Nat) (e : LibElement K), s.elements[n]? = some e → ∃ e1 e2 e', s1.elements[n]? = some e1 ∧
        s2.elements[n]? = some e2 ∧ s'.elements[n]? = some e' ∧ view kind sub e1.data = view kind sub e.data ∧
        view kind sub e'.data = view kind sub e2.data ∧ e1.data.binding = e.data.binding ∧
        e'.data.binding = e.data.binding := by
  intro l
  induction l with
  | nil => intro s s' _ _ h; simp at h
  | cons x l ih =>
    obtain ⟨k', m', f'⟩ := x
    intro s s' h hnd hm
    obtain ⟨s1, hd, h1, h2⟩ := loadFiles_cons h
    simp only [List.map_cons, List.nodup_cons] at hnd
    rcases List.mem_cons.1 hm with hm | hm
    · simp only [Prod.mk.injEq] at hm
      obtain ⟨rfl, rfl, rfl⟩ := hm
      refine ⟨s, s1, h1, fun n e he => ?_⟩
      obtain ⟨e2, g1, g2⟩ := forall₂_get ((loadFailed kind strtod s main _ _).1 subs hsubs) he
      rw [h1] at g1
      obtain ⟨e', b1, b2, b3⟩ := loadFiles_frame hsubs hsub l s1 s' h2 hnd.1 n e2 g1
      exact ⟨e, e2, e', he, g1, b1, rfl, b2, rfl, b3.trans g2.binding⟩
    · obtain ⟨sa, sb, g1, g2⟩ := ih s1 s' h2 hnd.2 hm
      refine ⟨sa, sb, g1, fun n e he => ?_⟩
      have hne : (k', m') ≠ (kind, main) := by
        intro heq
        exact hnd.1 (by rw [heq]; exact List.mem_map_of_mem hm)
      obtain ⟨e0, a1, a2, a3⟩ := load_frame h1 hsubs hsub hne he
      obtain ⟨e1, e2, e', c1, c2, c3, c4, c5, c6, c7⟩ := g2 n e0 a1
      exact ⟨e1, e2, e', c1, c2, c3, c4.trans a2, c5, c6.trans a3, c7.trans a3⟩

/-- What loading a file does to the map of a subshell. -/
theorem load_at {kind : Kind} {main : String} {subs : List Str} {sub : Str} {strtod : Str → K} {s s' : State K} {file : String}
    {text : Option Str} (h : load kind strtod s main file text = (.ok (), s')) (hsubs : subshellsOf main = some subs) {i : Nat}
    (hi : subs[i]? = some sub) : ∃ scan : Scan K, FileScan strtod text i scan ∧ ∀ (n : Nat) (e e' : LibElement K),
      s.elements[n]? = some e → s'.elements[n]? = some e' →
      (scan.rows[n]? = none → view kind sub e'.data = view kind sub e.data) ∧
      ∀ row, scan.rows[n]? = some row → ∃ a b, kind.apply sub a (columns kind scan.labels row) = (.ok (), b) ∧
        view kind sub a = view kind sub e.data ∧ view kind sub b = view kind sub e'.data ∧ a.binding = e.data.binding := by
  obtain ⟨subs', scans, h1, h2, h3, _, h5, -⟩ := loadCalls kind strtod s s' main file text h
  rw [hsubs] at h1
  obtain rfl := Option.some.inj h1
  have hlt : i < scans.length := by rw [h2]; exact (List.getElem?_eq_some_iff.1 hi).1
  have hscan : scans[i]? = some scans[i] := List.getElem?_eq_getElem hlt
  obtain ⟨a1, a2⟩ := h3 i _ hscan
  refine ⟨scans[i], ⟨a1, a2⟩, fun n e e' he he' => ?_⟩
  obtain ⟨e2, h6, h7⟩ := h5 n e he
  rw [he'] at h7
  obtain rfl := Option.some.inj h7
  have hnd := subshells_nodup hsubs
  refine ⟨fun hr => performed_frame h6 (Or.inr (callsFor_none kind n subs scans i sub _ hnd hi hscan hr)), fun row hr => ?_⟩
  exact performed_at h6 ((callsFor_sublist kind n subs scans).nodup hnd)
    (callsFor_mem kind n subs scans i sub _ row hi hscan hr)

/-! ## What a call on a subshell does -/

theorem foldl_kept (name : Str → Str) : ∀ (l : List (Str × K)) (m : SMap Str K),
    (∀ k v, SMap.find? (l.foldl (fun m e => SMap.insert m (name e.1) e.2) m) k = some v →
      (∃ p ∈ l, name p.1 = k ∧ p.2 = v) ∨ m.find? k = some v) ∧
    (∀ k, (∀ p ∈ l, name p.1 ≠ k) → SMap.find? (l.foldl (fun m e => SMap.insert m (name e.1) e.2) m) k = m.find? k) ∧
    (∀ p ∈ l, (∀ q ∈ l, name q.1 = name p.1 → q = p) →
      SMap.find? (l.foldl (fun m e => SMap.insert m (name e.1) e.2) m) (name p.1) = some p.2)
  | [], m => ⟨fun k v h => Or.inr h, fun k _ => rfl, fun p h => by simp at h⟩
  | a :: l, m => by
    obtain ⟨h1, h2, h3⟩ := foldl_kept name l (m.insert (name a.1) a.2)
    simp only [List.foldl_cons]
    refine ⟨fun k v h => ?_, fun k hk => ?_, fun p hp hu => ?_⟩
    · rcases h1 k v h with ⟨p, p1, p2⟩ | h
      · exact Or.inl ⟨p, List.mem_cons_of_mem _ p1, p2⟩
      · rw [SMap.find?_insert] at h
        split_ifs at h with hk
        · exact Or.inl ⟨a, by simp, hk, by simpa using h⟩
        · exact Or.inr h
    · rw [h2 k (fun p hp => hk p (List.mem_cons_of_mem _ hp)), SMap.find?_insert, if_neg (hk a (by simp))]
    · by_cases hpl : p ∈ l
      · exact h3 p hpl (fun q hq => hu q (List.mem_cons_of_mem _ hq))
      · rcases List.mem_cons.1 hp with rfl | hp
        · rw [h2, SMap.find?_insert, if_pos rfl]
          intro q hq hn
          rw [hu q (List.mem_cons_of_mem _ hq) hn] at hq
          exact hpl hq
        · exact absurd hp hpl

theorem foldl_Kept (name : Str → Str) {d : SMap Str K} (hd : d.Sorted) :
    Kept name d (d.foldl (fun m e => SMap.insert m (name e.1) e.2) []) := by
  obtain ⟨h1, _, h3⟩ := foldl_kept name d []
  refine ⟨fun label v hl hu => ?_, fun k v h => ?_⟩
  · refine h3 (label, v) (SMap.mem_of_find? hl) (fun q hq hn => ?_)
    have hq' := (SMap.find?_iff_mem hd).2 hq
    have := hu q.1 q.2 hq' hn
    rw [this, hl] at hq'
    exact Prod.ext this (Option.some.inj hq').symm
  · rcases h1 k v h with ⟨p, p1, p2, p3⟩ | h
    · exact ⟨p.1, p2, (SMap.find?_iff_mem hd).2 (by rw [← p3]; exact p1)⟩
    · simp at h

theorem radiativeKey_name {name l k : Str} (h : Shell.radiativeKey name l = some k) : k = lineName l := by
  unfold Shell.radiativeKey at h
  unfold lineName
  dsimp only at h ⊢
  have ht : Shell.total = "TOTAL".toList := rfl
  rw [← ht]
  generalize (if (Str.upper l).length = 2 then Str.upper l ++ ['2'] else Str.upper l) = t at h ⊢
  by_cases h1 : t.length = 5 ∧ t ≠ Shell.total
  · rw [if_pos h1] at h ⊢
    split at h
    · exact (Option.some.inj h).symm
    · cases h
  · rw [if_neg h1] at h ⊢
    split at h
    · exact (Option.some.inj h).symm
    · split at h
      · exact (Option.some.inj h).symm
      · cases h

theorem radiativeLoop_fold (name : Str) : ∀ (l pre : List (Str × K)) (m : SMap Str K),
    (Shell.radiativeLoop name (l.map Prod.fst) ((pre ++ l).map Prod.snd) pre.length m).1 = .ok () →
    (Shell.radiativeLoop name (l.map Prod.fst) ((pre ++ l).map Prod.snd) pre.length m).2 =
      l.foldl (fun m e => SMap.insert m (lineName e.1) e.2) m
  | [], pre, m, _ => rfl
  | a :: l, pre, m, h => by
    have ih := radiativeLoop_fold name l (pre ++ [a])
    have hget : vget ((pre ++ a :: l).map Prod.snd) pre.length = .ok a.2 := by
      have : ((pre ++ a :: l).map Prod.snd)[pre.length]? = some a.2 := by simp
      simp only [vget, this]
    unfold Shell.radiativeLoop at h ⊢
    simp only [List.map_cons] at h ⊢
    cases hk : Shell.radiativeKey name a.1 with
    | none => rw [hk] at h; cases h
    | some k =>
      rw [hk] at h
      simp only [hget] at h ⊢
      have hp : pre ++ a :: l = pre ++ [a] ++ l := by simp
      have hp' : pre.length + 1 = (pre ++ [a]).length := by simp
      rw [hp, hp'] at h ⊢
      rw [ih _ h, radiativeKey_name hk]
      rfl

theorem nonradiativeLoop_fold : ∀ (l pre : List (Str × K)) (m : SMap Str K),
    (Shell.nonradiativeLoop (l.map Prod.fst) ((pre ++ l).map Prod.snd) pre.length m) =
      (.ok (), l.foldl (fun m e => SMap.insert m (Str.upper e.1) e.2) m)
  | [], pre, m => rfl
  | a :: l, pre, m => by
    have ih := nonradiativeLoop_fold l (pre ++ [a])
    have hget : vget ((pre ++ a :: l).map Prod.snd) pre.length = .ok a.2 := by
      have : ((pre ++ a :: l).map Prod.snd)[pre.length]? = some a.2 := by simp
      simp only [vget, this]
    unfold Shell.nonradiativeLoop
    simp only [List.map_cons, hget]
    have hp : pre ++ a :: l = pre ++ [a] ++ l := by simp
    have hp' : pre.length + 1 = (pre ++ [a]).length := by simp
    have := ih (m.insert (Str.upper a.1) a.2)
    rw [← hp, ← hp', List.map_append, List.map_cons] at this
    rw [List.map_append, List.map_cons]
    exact this

theorem checkSubshell_shell {e : Element K} {sub : Str} {s : Shell K} (hs : e.checkSubshell sub = .ok s) :
    e.shells.find? sub = some s := by
  unfold Element.checkSubshell at hs
  split at hs
  · cases hs
  · split_ifs at hs
    split at hs
    · cases hs
    · rename_i hf; simp only [Outcome.ok.injEq] at hs; rw [← hs]; exact hf

theorem apply_radiative {sub : Str} {e e' : Element K} {d : SMap Str K} (h : Kind.radiative.apply sub e d = (.ok (), e'))
    (hd : d.Sorted) : (Element.at0 e.binding sub ≤ 0 → view .radiative sub e' = view .radiative sub e) ∧
      (0 < Element.at0 e.binding sub → ∃ c, view .radiative sub e' = some c ∧ Kept lineName d c) := by
  unfold Kind.apply at h
  dsimp only at h
  refine ⟨fun hb => ?_, fun hb => ?_⟩
  · rw [if_neg (not_lt.2 hb)] at h
    obtain rfl : e = e' := congrArg Prod.snd h
    rfl
  · rw [if_pos hb] at h
    unfold Element.setRadiativeMap at h
    dsimp only at h
    split at h
    · rename_i s hs
      split at h
      · rename_i hr
        have h := (congrArg Prod.snd h)
        simp only at h
        subst h
        refine ⟨(s.setRadiativeMap d).2.radiative, ?_, ?_⟩
        · unfold view Element.clearCache
          simp only
          rw [SMap.find?_insert, if_pos rfl]
          rfl
        · unfold Shell.setRadiativeMap at hr ⊢
          obtain ⟨r1, r2⟩ := Shell.setRadiative_ok (Prod.ext hr rfl)
          rw [show (s.setRadiative (d.map Prod.fst) (d.map Prod.snd)).2.radiative = _ from congrArg Shell.radiative r2]
          have := radiativeLoop_fold s.name d [] [] (by simpa using r1)
          simp only [List.nil_append, List.length_nil] at this
          rw [this]
          exact foldl_Kept lineName hd
      · rename_i o hno
        exact absurd (congrArg Prod.fst h) hno
    all_goals cases h

theorem apply_nonradiative {sub : Str} {e e' : Element K} {d : SMap Str K}
    (h : Kind.nonradiative.apply sub e d = (.ok (), e')) (hd : d.Sorted) :
    (Element.at0 e.binding sub ≤ 0 → view .nonradiative sub e' = view .nonradiative sub e) ∧
      (0 < Element.at0 e.binding sub → ∃ c, view .nonradiative sub e' = some c ∧ KeptTotal Str.upper d c) := by
  unfold Kind.apply at h
  dsimp only at h
  refine ⟨fun hb => ?_, fun hb => ?_⟩
  · rw [if_neg (not_lt.2 hb)] at h
    obtain rfl : e = e' := congrArg Prod.snd h
    rfl
  · rw [if_pos hb] at h
    unfold Element.setNonradiativeMap Element.setNonradiative at h
    dsimp only at h
    split at h
    · rename_i s hs
      split at h
      · rename_i hr
        have h := (congrArg Prod.snd h)
        simp only at h
        subst h
        refine ⟨(s.setNonradiative (d.map Prod.fst) (d.map Prod.snd)).2.nonradiative, ?_, ?_⟩
        · unfold view Element.clearCache
          simp only
          rw [SMap.find?_insert, if_pos rfl]
          rfl
        · unfold Shell.setNonradiative
          have := nonradiativeLoop_fold d [] []
          simp only [List.nil_append, List.length_nil] at this
          rw [this]
          simp only
          refine ⟨_, foldl_Kept Str.upper hd, fun k => ?_⟩
          unfold Shell.updateNonradiative
          simp only
          generalize hm : (List.foldl (fun m e => SMap.insert m (Str.upper e.1) e.2) [] d : SMap Str K) = m
          have ht : Shell.total = "TOTAL".toList := rfl
          rw [← ht]
          by_cases hmt : m.mem Shell.total = true
          · rw [if_pos hmt, if_neg]
            rintro ⟨rfl, h2⟩
            unfold SMap.mem at hmt
            rw [h2] at hmt
            cases hmt
          · rw [if_neg hmt, SMap.find?_insert]
            have hn : m.find? Shell.total = none := by
              unfold SMap.mem at hmt
              cases hf : m.find? Shell.total with
              | none => rfl
              | some v => rw [hf] at hmt; simp at hmt
            have hfil : m.filter (fun e => e.1 ≠ Shell.total) = m := by
              rw [List.filter_eq_self]
              intro a ha
              simp only [ne_eq, decide_not, Bool.not_eq_true', decide_eq_false_iff_not]
              rintro heq
              rw [SMap.find?_eq_none_iff] at hn
              exact hn a ha heq
            by_cases hk : Shell.total = k
            · subst hk
              rw [if_pos rfl, if_pos ⟨rfl, hn⟩, hfil]
            · rw [if_neg hk, if_neg (fun h => hk h.1.symm)]
      · rename_i o hno
        exact absurd (congrArg Prod.fst h) hno
    all_goals cases h

theorem apply_constants {sub : Str} {e e' : Element K} {d : SMap Str K} (h : Kind.constants.apply sub e d = (.ok (), e'))
    (hd : d.Sorted) : ∃ c c', view .constants sub e = some c ∧ view .constants sub e' = some c' ∧
      ∀ k, c'.find? k = (d.find? k).or (c.find? k) := by
  obtain ⟨sh, c, h1, h2, h3⟩ := setShellConstants_ok h
  refine ⟨sh.constants, c, by unfold view; rw [h1]; rfl, ?_, fun k => ?_⟩
  · unfold view
    rw [h3, SMap.find?_insert, if_pos rfl]
    rfl
  · rw [h2, SMap.foldl_insert_find? _ _ _ (SMap.keys_nodup hd)]
    cases d.find? k <;> rfl

/-! ## New shells -/

theorem setPartials_shells {t : SMap Str (List K)} : ∀ (ss : List Str) (e : Element K),
    (Element.setPartials t ss e).1 = .ok () → (Element.setPartials t ss e).2.shells = e.shells
  | [], e, _ => rfl
  | a :: ss, e, h => by
    unfold Element.setPartials at h ⊢
    obtain ⟨u, h1, h2, h3⟩ := thenDo_ok h
    simp only at h2 h3 ⊢
    rw [h3, setPartials_shells ss _ h2]
    exact (Element.setPartial_ok h1).2.2.2.2.2.2.2.1

theorem setAll_shells {e : Element K} {t : SMap Str (List K)} (h : (e.setAll t).1 = .ok ()) :
    (e.setAll t).2.shells = e.shells := by
  unfold Element.setAll at h ⊢
  simp only at h ⊢
  obtain ⟨u, h1, h2, h3⟩ := thenDo_ok h
  rw [h3, setPartials_shells _ _ h2, (Element.setMass_ok h1).2.2.2.2.2]
  rfl

theorem bindingLoop_fresh : ∀ (input : List (Str × K)) (b : SMap Str K) (sh : SMap Str (Shell K)) (k : Str) (s : Shell K),
    (Element.bindingLoop input b sh).2.2.find? k = some s → sh.find? k = some s ∨ Shell.mk? k = .ok s
  | [], b, sh, k, s, h => Or.inl h
  | (k0, v0) :: rest, b, sh, k, s, h => by
    unfold Element.bindingLoop at h
    dsimp only at h
    split_ifs at h with h1 h2
    · exact bindingLoop_fresh rest _ _ k s h
    · split at h
      · rename_i s0 hs0
        rcases bindingLoop_fresh rest _ _ k s h with g | g
        · rw [SMap.find?_insert] at g
          split_ifs at g with hk
          · subst hk
            rw [← Option.some.inj g]
            exact Or.inr hs0
          · exact Or.inl g
        · exact Or.inr g
      all_goals exact Or.inl h
    · exact bindingLoop_fresh rest _ _ k s h

theorem foldl_zero {f : Nat → Str} : ∀ (l : List Nat) (m : SMap Str K), (∀ k v, m.find? k = some v → v = 0) →
    ∀ k v, (l.foldl (fun m i => SMap.insert m (f i) (0 : K)) m).find? k = some v → v = 0
  | [], m, h => h
  | a :: l, m, h => foldl_zero l _ (fun k v hk => by
      rw [SMap.find?_insert] at hk
      split_ifs at hk
      · exact (Option.some.inj hk).symm
      · exact h k v hk)

theorem mk?_fresh {k : Str} {s : Shell K} (h : Shell.mk? k = .ok s) :
    s.radiative = [] ∧ s.nonradiative = [] ∧ ∀ c v, s.constants.find? c = some v → v = 0 := by
  have hz : ∀ (main : Int) (idx : Nat) c v, (Shell.initialConstants k main idx : SMap Str K).find? c = some v → v = 0 := by
    intro main idx
    have h0 : ∀ c v, (SMap.insert [] "omega".toList 0 : SMap Str K).find? c = some v → v = 0 := by
      intro c v hc
      rw [SMap.find?_insert] at hc
      split_ifs at hc
      · exact (Option.some.inj hc).symm
      · simp at hc
    unfold Shell.initialConstants
    dsimp only
    split
    · exact foldl_zero _ _ h0
    · exact h0
  unfold Shell.mk? at h
  dsimp only at h
  split_ifs at h
  split at h
  · split at h
    · cases h
    · split_ifs at h
      obtain rfl := Outcome.ok.inj h
      exact ⟨rfl, rfl, hz _ _⟩
  · obtain rfl := Outcome.ok.inj h
    exact ⟨rfl, rfl, hz _ _⟩

theorem makeElement_fresh {epdl : EPDL97 K} {i : Info} {a : LibElement K} (h : makeElement epdl i = .ok a) (kind : Kind)
    (sub : Str) (c : SMap Str K) (hc : view kind sub a.data = some c) :
    (kind ≠ .constants → c = []) ∧ ∀ k v, c.find? k = some v → v = 0 := by
  obtain ⟨e, b, e1, t, h1, h2, h3, h4, h5, _⟩ := makeElement_ok h
  have hs := setAll_shells (congrArg Prod.fst h5)
  rw [h5] at hs
  simp only at hs
  unfold view at hc
  rw [hs] at hc
  cases hf : e1.shells.find? sub with
  | none => rw [hf] at hc; simp at hc
  | some s =>
    rw [hf] at hc
    simp only [Option.map_some, Option.some.injEq] at hc
    have h6 : (e.setBindingEnergies b).2.shells.find? sub = some s := by rw [h3]; exact hf
    have hmk : Shell.mk? sub = .ok s := by
      unfold Element.setBindingEnergies at h6
      rcases bindingLoop_fresh b [] [] sub s h6 with h | h
      · simp at h
      · exact h
    obtain ⟨f1, f2, f3⟩ := mk?_fresh hmk
    subst hc
    cases kind with
    | constants => exact ⟨fun h => absurd rfl h, f3⟩
    | radiative => exact ⟨fun _ => f1, fun k v hk => by rw [show field .radiative s = [] from f1] at hk; simp at hk⟩
    | nonradiative => exact ⟨fun _ => f2, fun k v hk => by rw [show field .nonradiative s = [] from f2] at hk; simp at hk⟩

/-! ## C123 -/

theorem shellFiles_mem {main : String} {subs : List Str} (h : subshellsOf main = some subs) (kind : Kind) :
    (kind, main, fileOf kind main) ∈ shellFiles := by
  unfold subshellsOf at h
  split_ifs at h with h1 h2 h3
  · subst h1; cases kind <;> decide
  · subst h2; cases kind <;> decide
  · subst h3; cases kind <;> decide

theorem shellFiles_nodup : (shellFiles.map (fun x => (x.1, x.2.1))).Nodup := by decide

/-- The map of a subshell of an element of a constructed library. -/
theorem setUp_view {on : Bool} {key : EscapeKey K} {strtod : Str → K} {fs : Files} {dir binding : String} {d : Database K}
    (h : setUp on key strtod fs dir binding = .ok d) {n : Nat} {i : Info} (hi : defaultElements[n]? = some i) (kind : Kind)
    {main : String} {subs : List Str} (hsubs : subshellsOf main = some subs) {k : Nat} {sub : Str} (hk : subs[k]? = some sub) :
    ∃ (scan : Scan K) (a e : LibElement K), FileScan strtod (fs (dir ++ "//" ++ fileOf kind main)) k scan ∧
      makeElement d.epdl i = .ok a ∧ d.lib.getElement i.symbol = .ok e ∧ e.data.binding = a.data.binding ∧
      (scan.rows[n]? = none → view kind sub e.data = view kind sub a.data) ∧
      ∀ row, scan.rows[n]? = some row → ∃ x y, kind.apply sub x (columns kind scan.labels row) = (.ok (), y) ∧
        view kind sub x = view kind sub a.data ∧ view kind sub y = view kind sub e.data ∧
        x.binding = e.data.binding := by
  obtain ⟨epdl, els, st, _, _, h3, h4, h5, _, _⟩ := setUp_ok h
  obtain ⟨a, ha, hma⟩ := forall₂_get h3 hi
  obtain ⟨a', e, hma', hae, he, hget⟩ := setUp_element h hi
  rw [hma] at hma'
  obtain rfl := Outcome.ok.inj hma'
  have hsub := List.mem_of_getElem? hk
  obtain ⟨s1, s2, g1, g2⟩ := loadFiles_one hsubs hsub shellFiles _ _ h4 shellFiles_nodup (shellFiles_mem hsubs kind)
  obtain ⟨e1, e2, e', c1, c2, c3, c4, c5, c6, c7⟩ := g2 n a ha
  have hee : e' = e := by
    have : d.lib.elements = st.elements := by rw [h5]
    rw [this, c3] at he
    exact Option.some.inj he
  subst hee
  obtain ⟨scan, f1, f2⟩ := load_at g1 hsubs hk
  obtain ⟨p1, p2⟩ := f2 n e1 e2 c1 c2
  refine ⟨scan, a, e', f1, hma, hget, c7, fun hr => ?_, fun row hr => ?_⟩
  · rw [c5, p1 hr, c4]
  · obtain ⟨x, y, q1, q2, q3, q4⟩ := p2 row hr
    exact ⟨x, y, q1, q2.trans c4, q3.trans c5.symm, q4.trans (c6.trans c7.symm)⟩

theorem getShell_view {e : Element K} {sub : Str} {kind : Kind} {c : SMap Str K} (h : view kind sub e = some c) :
    ∃ s, getShell e sub = .ok s ∧ field kind s = c := by
  unfold view at h
  unfold getShell
  cases hf : e.shells.find? sub with
  | none => rw [hf] at h; simp at h
  | some s =>
    rw [hf] at h
    exact ⟨s, rfl, by simpa using h⟩

theorem view_getShell {e : Element K} {sub : Str} {s : Shell K} (h : getShell e sub = .ok s) (kind : Kind) :
    view kind sub e = some (field kind s) := by
  unfold getShell at h
  unfold view
  split at h
  · rename_i s' hf
    rw [hf, ← Outcome.ok.inj h]
    rfl
  · cases h

/-- **C123** The yields of subshell `k` of a main shell (K, L or M) of the `n`-th element of a constructed library are those
of row `n` of scan `k` of the file of that main shell, and 0 when there is no such column or row. -/
theorem C123_yields (on : Bool) (key : EscapeKey K) (strtod : Str → K) (fs : Files) (dir binding : String) (d : Database K)
    (h : setUp on key strtod fs dir binding = .ok d) (n : Nat) (i : Info) (hi : defaultElements[n]? = some i)
    (main : String) (subs : List Str) (hsubs : Loader.HasSubshells main subs) (k : Nat) (sub : Str)
    (hk : subs[k]? = some sub) :
    ∃ scan : Scan K, FileScan strtod (fs (dir ++ "//" ++ "EADL97_" ++ main ++ "ShellConstants.dat")) k scan ∧
      (∀ row, scan.rows[n]? = some row → ∃ c, getShellConstants d i.symbol sub = .ok c ∧
        (∀ y v, (columns .constants scan.labels row).find? y = some v → c.find? y = some v) ∧
        ∀ y v, c.find? y = some v → (columns .constants scan.labels row).find? y = some v ∨ v = 0) ∧
      (scan.rows[n]? = none → ∀ c, getShellConstants d i.symbol sub = .ok c → ∀ y v, c.find? y = some v → v = 0) := by
  replace hsubs := Loader.has_iff.1 hsubs
  obtain ⟨scan, a, e, h1, h2, h3, h4, h5, h6⟩ := setUp_view h hi .constants hsubs hk
  have hpath : dir ++ "//" ++ fileOf .constants main = dir ++ "//" ++ "EADL97_" ++ main ++ "ShellConstants.dat" := by
    unfold fileOf
    simp only [String.append_assoc]
  rw [hpath] at h1
  refine ⟨scan, h1, fun row hr => ?_, fun hr c hc y v hy => ?_⟩
  · obtain ⟨x, y, p1, p2, p3, _⟩ := h6 row hr
    obtain ⟨c, c', q1, q2, q3⟩ := apply_constants p1 (SMap.ofList_sorted _)
    rw [p2] at q1
    rw [p3] at q2
    obtain ⟨s, hs, hfs⟩ := getShell_view q2
    refine ⟨c', ?_, fun y v hy => by rw [q3, hy]; rfl, fun y v hy => ?_⟩
    · unfold getShellConstants
      rw [h3]
      simp only [Outcome.ok_bind, hs, Outcome.pure_eq]
      exact congrArg Outcome.ok hfs
    · rw [q3] at hy
      cases hd : (columns .constants scan.labels row).find? y with
      | some w => rw [hd] at hy; exact Or.inl hy
      | none => rw [hd] at hy; exact Or.inr ((makeElement_fresh h2 .constants sub c q1).2 y v hy)
  · unfold getShellConstants at hc
    rw [h3, Outcome.ok_bind] at hc
    obtain ⟨s, hs, hc⟩ := Outcome.bind_eq_ok.1 hc
    obtain rfl := Outcome.ok.inj hc
    have := view_getShell hs .constants
    rw [h5 hr] at this
    exact (makeElement_fresh h2 .constants sub _ this).2 y v hy

/-- **C123** The radiative transitions of a subshell with a positive binding energy are the rates of the file, under their
names; there are none for the other subshells and for the elements that have no row. -/
theorem C123_radiative (on : Bool) (key : EscapeKey K) (strtod : Str → K) (fs : Files) (dir binding : String) (d : Database K)
    (h : setUp on key strtod fs dir binding = .ok d) (n : Nat) (i : Info) (hi : defaultElements[n]? = some i)
    (main : String) (subs : List Str) (hsubs : Loader.HasSubshells main subs) (k : Nat) (sub : Str)
    (hk : subs[k]? = some sub) :
    ∃ (scan : Scan K) (b : SMap Str K),
      FileScan strtod (fs (dir ++ "//" ++ "EADL97_" ++ main ++ "ShellRadiativeRates.dat")) k scan ∧
      getBindingEnergies d i.symbol = .ok b ∧
      (∀ row, scan.rows[n]? = some row → 0 < Element.at0 b sub → ∃ c, getRadiativeTransitions d i.symbol sub = .ok c ∧
        Kept lineName (columns .radiative scan.labels row) c) ∧
      (scan.rows[n]? = none ∨ Element.at0 b sub ≤ 0 → ∀ c, getRadiativeTransitions d i.symbol sub = .ok c → c = []) := by
  replace hsubs := Loader.has_iff.1 hsubs
  obtain ⟨scan, a, e, h1, h2, h3, h4, h5, h6⟩ := setUp_view h hi .radiative hsubs hk
  have hpath : dir ++ "//" ++ fileOf .radiative main = dir ++ "//" ++ "EADL97_" ++ main ++ "ShellRadiativeRates.dat" := by
    unfold fileOf
    simp only [String.append_assoc]
  rw [hpath] at h1
  refine ⟨scan, e.data.binding, h1, by unfold getBindingEnergies; rw [h3]; rfl, fun row hr hb => ?_, fun hr c hc => ?_⟩
  · obtain ⟨x, y, p1, _, p3, p4⟩ := h6 row hr
    obtain ⟨c, q1, q2⟩ := (apply_radiative p1 (SMap.ofList_sorted _)).2 (by rw [p4]; exact hb)
    rw [p3] at q1
    obtain ⟨s, hs, hfs⟩ := getShell_view q1
    refine ⟨c, ?_, q2⟩
    unfold getRadiativeTransitions
    rw [h3]
    simp only [Outcome.ok_bind, hs, Outcome.pure_eq]
    exact congrArg Outcome.ok hfs
  · unfold getRadiativeTransitions at hc
    rw [h3, Outcome.ok_bind] at hc
    obtain ⟨s, hs, hc⟩ := Outcome.bind_eq_ok.1 hc
    obtain rfl := Outcome.ok.inj hc
    have hv := view_getShell hs .radiative
    have : view .radiative sub e.data = view .radiative sub a.data := by
      cases hrow : scan.rows[n]? with
      | none => exact h5 hrow
      | some row =>
        rw [hrow] at hr
        have hb : Element.at0 e.data.binding sub ≤ 0 := by simpa using hr
        obtain ⟨x, y, p1, p2, p3, p4⟩ := h6 row hrow
        rw [← p3, ← p2]
        exact (apply_radiative p1 (SMap.ofList_sorted _)).1 (by rw [p4]; exact hb)
    rw [this] at hv
    exact (makeElement_fresh h2 .radiative sub _ hv).1 (by decide)

/-- **C123** The same for the nonradiative transitions. -/
theorem C123_nonradiative (on : Bool) (key : EscapeKey K) (strtod : Str → K) (fs : Files) (dir binding : String)
    (d : Database K) (h : setUp on key strtod fs dir binding = .ok d) (n : Nat) (i : Info)
    (hi : defaultElements[n]? = some i) (main : String) (subs : List Str) (hsubs : Loader.HasSubshells main subs) (k : Nat)
    (sub : Str) (hk : subs[k]? = some sub) :
    ∃ (scan : Scan K) (b : SMap Str K),
      FileScan strtod (fs (dir ++ "//" ++ "EADL97_" ++ main ++ "ShellNonradiativeRates.dat")) k scan ∧
      getBindingEnergies d i.symbol = .ok b ∧
      (∀ row, scan.rows[n]? = some row → 0 < Element.at0 b sub → ∃ c, getNonradiativeTransitions d i.symbol sub = .ok c ∧
        KeptTotal Str.upper (columns .nonradiative scan.labels row) c) ∧
      (scan.rows[n]? = none ∨ Element.at0 b sub ≤ 0 → ∀ c, getNonradiativeTransitions d i.symbol sub = .ok c → c = []) := by
  replace hsubs := Loader.has_iff.1 hsubs
  obtain ⟨scan, a, e, h1, h2, h3, h4, h5, h6⟩ := setUp_view h hi .nonradiative hsubs hk
  have hpath : dir ++ "//" ++ fileOf .nonradiative main = dir ++ "//" ++ "EADL97_" ++ main ++ "ShellNonradiativeRates.dat" := by
    unfold fileOf
    simp only [String.append_assoc]
  rw [hpath] at h1
  refine ⟨scan, e.data.binding, h1, by unfold getBindingEnergies; rw [h3]; rfl, fun row hr hb => ?_, fun hr c hc => ?_⟩
  · obtain ⟨x, y, p1, _, p3, p4⟩ := h6 row hr
    obtain ⟨c, q1, q2⟩ := (apply_nonradiative p1 (SMap.ofList_sorted _)).2 (by rw [p4]; exact hb)
    rw [p3] at q1
    obtain ⟨s, hs, hfs⟩ := getShell_view q1
    refine ⟨c, ?_, q2⟩
    unfold getNonradiativeTransitions
    rw [h3]
    simp only [Outcome.ok_bind, hs, Outcome.pure_eq]
    exact congrArg Outcome.ok hfs
  · unfold getNonradiativeTransitions at hc
    rw [h3, Outcome.ok_bind] at hc
    obtain ⟨s, hs, hc⟩ := Outcome.bind_eq_ok.1 hc
    obtain rfl := Outcome.ok.inj hc
    have hv := view_getShell hs .nonradiative
    have : view .nonradiative sub e.data = view .nonradiative sub a.data := by
      cases hrow : scan.rows[n]? with
      | none => exact h5 hrow
      | some row =>
        rw [hrow] at hr
        have hb : Element.at0 e.data.binding sub ≤ 0 := by simpa using hr
        obtain ⟨x, y, p1, p2, p3, p4⟩ := h6 row hrow
        rw [← p3, ← p2]
        exact (apply_nonradiative p1 (SMap.ofList_sorted _)).1 (by rw [p4]; exact hb)
    rw [this] at hv
    exact (makeElement_fresh h2 .nonradiative sub _ hv).1 (by decide)

end Init
end Fisx
