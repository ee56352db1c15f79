import Verif.Split

/-!
# C158: calculations in several threads of Python

`PyXRF.getMultilayerFluorescence` and `PyXRF.getFluorescence` release the lock of the interpreter while the C++ code runs
(PyXRF.pyx:341, 442, `with nogil`); every other method of the interface holds it from beginning to end. So calculations run at the
same time as each other and as any other calls. The machine below interleaves them.

What is shared: the C++ function is `const` and takes the library and the beam by `const` reference (fisx_multilayer.cpp:40-49); it
has no `mutable` members and no static variables (the only ones of the project are in EPDL97::getInterpolationIndices, which the
calculation does not reach, and in the version string). It therefore reads the configuration, the library and the beam, when and as
often as it likes, and writes only its own variables.

Simplifications: the objects stay alive during a call (the caller holds references to them); a read gives the object as it is at that
moment, a program that uses one member of it reads this member; a call on the same object by another thread, which may write while
the calculation reads, is a data race and hence undefined behaviour.
-/

set_option linter.unusedSectionVars false

namespace Fisx
namespace Threads

open Multilayer (Options Result)
open Xrf (Request)

variable {R : Type}

/-- The objects of the interpreter. -/
structure Heap (R : Type) where
  xrf : Nat → Config ℝ R
  lib : Nat → Library ℝ
  beam : Nat → Beam ℝ

/-- What a call that holds the lock may write: one object; what it writes may depend on every object. -/
inductive Write (R : Type)
  | nothing
  | xrf (n : Nat) (f : Heap R → Config ℝ R)
  | lib (n : Nat) (f : Heap R → Library ℝ)
  | beam (n : Nat) (f : Heap R → Beam ℝ)

/-- The heap after a call. -/
def Heap.after (h : Heap R) : Write R → Heap R
  | .nothing => h
  | .xrf n f => { h with xrf := Function.update h.xrf n (f h) }
  | .lib n f => { h with lib := Function.update h.lib n (f h) }
  | .beam n f => { h with beam := Function.update h.beam n (f h) }

/-- The arguments of a calculation: the three objects and the rest. -/
structure Args where
  xrf : Nat
  lib : Nat
  beam : Nat
  options : Options ℝ
  geometric : Bool
  requests : List (Outcome Request)

/-- A call writes an object that a calculation uses. -/
def Write.hits : Write R → Args → Bool
  | .nothing, _ => false
  | .xrf n _, a => n == a.xrf
  | .lib n _, a => n == a.lib
  | .beam n _, a => n == a.beam

/-- A program that reads the three objects in some order, any number of times. -/
inductive Prog (R : Type)
  | done (r : Outcome (Result ℝ))
  | readXrf (k : Config ℝ R → Prog R)
  | readLib (k : Library ℝ → Prog R)
  | readBeam (k : Beam ℝ → Prog R)

/-- What a program returns when nothing else happens. -/
def Prog.run (c : Config ℝ R) (L : Library ℝ) (b : Beam ℝ) : Prog R → Outcome (Result ℝ)
  | .done r => r
  | .readXrf k => (k c).run c L b
  | .readLib k => (k L).run c L b
  | .readBeam k => (k b).run c L b

/-- A calculation that has been started and has not returned. -/
structure Running (R : Type) where
  thread : Nat
  args : Args
  prog : Prog R

/-- What happens in the process. -/
inductive Event (R : Type)
  | call (w : Write R)
  | start (thread : Nat) (a : Args)
  | read (thread : Nat)
  | ret (thread : Nat)

/-- The process: objects, calculations under way, results delivered to the threads. -/
structure Machine (R : Type) where
  heap : Heap R
  running : List (Running R)
  returned : List (Nat × Outcome (Result ℝ))

/-- A state, or a data race. -/
inductive Exec (R : Type)
  | state (m : Machine R)
  | race

/-- One read of a running calculation. -/
def Running.read (h : Heap R) (t : Running R) : Running R :=
  match t.prog with
  | .done _ => t
  | .readXrf k => { t with prog := k (h.xrf t.args.xrf) }
  | .readLib k => { t with prog := k (h.lib t.args.lib) }
  | .readBeam k => { t with prog := k (h.beam t.args.beam) }

/-- The thread has a calculation under way. -/
def busy (ts : List (Running R)) (i : Nat) : Bool := ts.any (fun t => t.thread == i)

/-- PyXRF.pyx:306-447: one event. `code` is what the compiled getMultilayerFluorescence does. A thread runs one calculation at a
time; events that cannot happen (a return before the end) change nothing. -/
def step (code : Args → Prog R) (m : Machine R) : Event R → Exec R
  | .call w => if m.running.any (fun t => w.hits t.args) then .race else .state { m with heap := m.heap.after w }
  | .start i a =>
    if busy m.running i then .state m else .state { m with running := m.running ++ [⟨i, a, code a⟩] }
  | .read i => .state { m with running := m.running.map (fun t => if t.thread == i then t.read m.heap else t) }
  | .ret i =>
    match m.running.find? (fun t => t.thread == i) with
    | none => .state m
    | some t =>
      match t.prog with
      | .done r => .state { m with running := m.running.filter (fun t => !(t.thread == i)), returned := m.returned ++ [(i, r)] }
      | _ => .state m

/-- A sequence of events. -/
def exec (code : Args → Prog R) (m : Machine R) : List (Event R) → Exec R
  | [] => .state m
  | e :: es =>
    match step code m e with
    | .state m => exec code m es
    | .race => .race

section theorems

variable (pf : String → Outcome (SMap String ℝ)) (fuel : Nat) (srt : List (String × ℝ) → List (String × ℝ))

/-- The calculation as a user understands it: of the objects as they are. -/
noncomputable def result (h : Heap R) (a : Args) : Outcome (Result ℝ) :=
  Multilayer.fluorescence pf fuel (h.lib a.lib) srt (h.xrf a.xrf) a.options a.geometric (h.beam a.beam) a.requests

/-- The code computes this, however it reads the objects. -/
def Computes (code : Args → Prog R) : Prop :=
  ∀ a c L b, (code a).run c L b = Multilayer.fluorescence pf fuel L srt c a.options a.geometric b a.requests

/-- There is such code. -/
theorem computes_exists : ∃ code : Args → Prog R, Computes pf fuel srt code :=
  ⟨fun a => .readXrf fun c => .readLib fun L => .readBeam fun b =>
    .done (Multilayer.fluorescence pf fuel L srt c a.options a.geometric b a.requests), fun _ _ _ _ => rfl⟩

/-- The objects after some events, if the calculations write nothing. -/
def Heap.afterAll (h : Heap R) : List (Event R) → Heap R
  | [] => h
  | .call w :: es => (h.after w).afterAll es
  | _ :: es => h.afterAll es

variable {pf fuel srt}

theorem read_run (h : Heap R) (t : Running R) :
    (t.read h).thread = t.thread ∧ (t.read h).args = t.args ∧
    (t.read h).prog.run (h.xrf t.args.xrf) (h.lib t.args.lib) (h.beam t.args.beam) =
      t.prog.run (h.xrf t.args.xrf) (h.lib t.args.lib) (h.beam t.args.beam) := by
  obtain ⟨i, a, p⟩ := t
  cases p <;> exact ⟨rfl, rfl, rfl⟩

theorem after_hits {h : Heap R} {w : Write R} {a : Args} (hw : w.hits a = false) :
    (h.after w).xrf a.xrf = h.xrf a.xrf ∧ (h.after w).lib a.lib = h.lib a.lib ∧ (h.after w).beam a.beam = h.beam a.beam := by
  cases w with
  | nothing => exact ⟨rfl, rfl, rfl⟩
  | xrf n f =>
    have : a.xrf ≠ n := fun h => by simp [Write.hits, h] at hw
    exact ⟨Function.update_of_ne this _ _, rfl, rfl⟩
  | lib n f =>
    have : a.lib ≠ n := fun h => by simp [Write.hits, h] at hw
    exact ⟨rfl, Function.update_of_ne this _ _, rfl⟩
  | beam n f =>
    have : a.beam ≠ n := fun h => by simp [Write.hits, h] at hw
    exact ⟨rfl, rfl, Function.update_of_ne this _ _⟩

/-- Thread `i` is running a calculation with arguments `a`, which will give `r`. -/
def Pending (m : Machine R) (i : Nat) (a : Args) (r : Outcome (Result ℝ)) : Prop :=
  ∃ t, m.running.find? (fun t => t.thread == i) = some t ∧ t.args = a ∧
    t.prog.run (m.heap.xrf a.xrf) (m.heap.lib a.lib) (m.heap.beam a.beam) = r

theorem find_map {i j : Nat} (g : Running R → Running R) (hg : ∀ t, (g t).thread = t.thread) (ts : List (Running R)) :
    (ts.map (fun t => if t.thread == j then g t else t)).find? (fun t => t.thread == i) =
      (ts.find? (fun t => t.thread == i)).map (fun t => if t.thread == j then g t else t) := by
  induction ts with
  | nil => rfl
  | cons t ts ih =>
    have ht : (if t.thread == j then g t else t).thread = t.thread := by
      split
      · exact hg t
      · rfl
    rw [List.map_cons, List.find?_cons, List.find?_cons, ht]
    split
    · rfl
    · exact ih

theorem find_filter {i j : Nat} (hij : i ≠ j) (ts : List (Running R)) :
    (ts.filter (fun t => !(t.thread == j))).find? (fun t => t.thread == i) = ts.find? (fun t => t.thread == i) := by
  induction ts with
  | nil => rfl
  | cons t ts ih =>
    by_cases hj : t.thread = j
    · have h1 : (t.thread == i) = false := by rw [hj]; simpa using Ne.symm hij
      rw [List.filter_cons_of_neg (by simp [hj]), List.find?_cons, h1]
      exact ih
    · rw [List.filter_cons_of_pos (by simp [hj]), List.find?_cons, List.find?_cons, ih]

/-- Nothing but its own return changes what a calculation will give. -/
theorem step_pending {code : Args → Prog R} {m m' : Machine R} {i : Nat} {a : Args} {r : Outcome (Result ℝ)} {e : Event R}
    (hp : Pending m i a r) (he : e ≠ .ret i) (h : step code m e = .state m') : Pending m' i a r := by
  obtain ⟨t, h1, rfl, h3⟩ := hp
  cases e with
  | call w =>
    simp only [step] at h
    split at h
    · cases h
    · rename_i hn
      cases h
      have hw : w.hits t.args = false := by
        cases hb : w.hits t.args with
        | false => rfl
        | true => exact absurd (List.any_eq_true.2 ⟨t, List.mem_of_find?_eq_some h1, hb⟩) hn
      obtain ⟨e1, e2, e3⟩ := after_hits (h := m.heap) hw
      exact ⟨t, h1, rfl, by rw [← h3]; simp only [e1, e2, e3]⟩
  | start j b =>
    simp only [step] at h
    split at h <;> cases h
    · exact ⟨t, h1, rfl, h3⟩
    · exact ⟨t, by rw [List.find?_append, h1]; rfl, rfl, h3⟩
  | read j =>
    simp only [step] at h
    cases h
    obtain ⟨r1, r2, r3⟩ := read_run m.heap t
    refine ⟨if t.thread == j then t.read m.heap else t, ?_, ?_, ?_⟩
    · show (m.running.map _).find? _ = _
      rw [find_map (fun t => t.read m.heap) (fun t => (read_run m.heap t).1), h1]
      rfl
    · split
      · exact r2
      · rfl
    · split
      · rw [← h3]; exact r3
      · exact h3
  | ret j =>
    have hij : i ≠ j := fun hh => he (by rw [hh])
    simp only [step] at h
    cases hf : m.running.find? (fun t => t.thread == j) with
    | none => rw [hf] at h; cases h; exact ⟨t, h1, rfl, h3⟩
    | some u =>
      rw [hf] at h
      dsimp only at h
      cases hp : u.prog with
      | done r' =>
        rw [hp] at h
        cases h
        exact ⟨t, by rw [find_filter hij, h1], rfl, h3⟩
      | readXrf k => rw [hp] at h; cases h; exact ⟨t, h1, rfl, h3⟩
      | readLib k => rw [hp] at h; cases h; exact ⟨t, h1, rfl, h3⟩
      | readBeam k => rw [hp] at h; cases h; exact ⟨t, h1, rfl, h3⟩

theorem exec_append (code : Args → Prog R) (m : Machine R) (xs ys : List (Event R)) (m' : Machine R) :
    exec code m (xs ++ ys) = .state m' ↔ ∃ m1, exec code m xs = .state m1 ∧ exec code m1 ys = .state m' := by
  induction xs generalizing m with
  | nil =>
    constructor
    · intro h; exact ⟨m, rfl, h⟩
    · rintro ⟨m1, h1, h2⟩; cases h1; exact h2
  | cons e xs ih =>
    rw [List.cons_append, exec, exec]
    cases step code m e with
    | state m2 => exact ih m2
    | race =>
      constructor
      · intro h; cases h
      · rintro ⟨m1, h1, -⟩; cases h1

theorem exec_pending {code : Args → Prog R} {i : Nat} {a : Args} {r : Outcome (Result ℝ)} :
    ∀ (es : List (Event R)) (m m' : Machine R), Pending m i a r → (.ret i) ∉ es → exec code m es = .state m' → Pending m' i a r
  | [], m, m', hp, _, h => by cases h; exact hp
  | e :: es, m, m', hp, hn, h => by
    rw [exec] at h
    cases hs : step code m e with
    | state m1 =>
      rw [hs] at h
      exact exec_pending es m1 m' (step_pending hp (fun he => hn (by simp [he])) hs) (fun hm => hn (by simp [hm])) h
    | race => rw [hs] at h; cases h

theorem step_heap {code : Args → Prog R} {m m' : Machine R} {e : Event R} (h : step code m e = .state m') :
    m'.heap = m.heap.afterAll [e] := by
  cases e with
  | call w =>
    simp only [step] at h
    split at h <;> cases h
    rfl
  | start j b =>
    simp only [step] at h
    split at h <;> cases h <;> rfl
  | read j => simp only [step] at h; cases h; rfl
  | ret j =>
    simp only [step] at h
    split at h
    · cases h; rfl
    · split at h <;> cases h <;> rfl

/-- **C158** (objects) Whatever the calculations under way, the objects are what the other calls make of them. -/
theorem C158_objects (code : Args → Prog R) : ∀ (es : List (Event R)) (m m' : Machine R), exec code m es = .state m' →
    m'.heap = m.heap.afterAll es
  | [], m, m', h => by cases h; rfl
  | e :: es, m, m', h => by
    rw [exec] at h
    cases hs : step code m e with
    | race => rw [hs] at h; cases h
    | state m1 =>
      rw [hs] at h
      rw [C158_objects code es m1 m' h, step_heap hs]
      cases e <;> rfl

/-- **C158** (results) In every execution without a data race, with any number of threads and any order of their steps, a calculation
started by thread `i` gives exactly the fluorescence of the objects as they were when it was called: its return, whenever it comes,
delivers this and nothing else, and comes after finitely many steps of the thread. -/
theorem C158_results_partial {code : Args → Prog R} (hc : Computes pf fuel srt code) (m0 m1 m : Machine R) (i : Nat) (a : Args)
    (before during : List (Event R)) (h0 : exec code m0 before = .state m1) (hidle : busy m1.running i = false)
    (hd : (.ret i) ∉ during) (h : exec code m0 (before ++ .start i a :: during) = .state m) :
    (∀ m', step code m (.ret i) = .state m' →
      m'.returned = m.returned ∨ m'.returned = m.returned ++ [(i, result pf fuel srt (m0.heap.afterAll before) a)]) ∧
    ∃ n m', exec code m (List.replicate n (.read i) ++ [.ret i]) = .state m' ∧
      m'.returned = m.returned ++ [(i, result pf fuel srt (m0.heap.afterAll before) a)] := by
  obtain ⟨m1', h1, h2⟩ := (exec_append code m0 before _ m).1 h
  rw [h0] at h1
  cases h1
  have hs : step code m1 (.start i a) = .state { m1 with running := m1.running ++ [⟨i, a, code a⟩] } := by
    simp only [step, hidle]
    rfl
  rw [exec, hs] at h2
  dsimp only at h2
  have hp0 : Pending { m1 with running := m1.running ++ [⟨i, a, code a⟩] } i a (result pf fuel srt m1.heap a) := by
    refine ⟨⟨i, a, code a⟩, ?_, rfl, hc _ _ _ _⟩
    have : m1.running.find? (fun t => t.thread == i) = none := by
      rw [List.find?_eq_none]
      intro t ht hti
      have : busy m1.running i = true := List.any_eq_true.2 ⟨t, ht, hti⟩
      rw [hidle] at this
      cases this
    show (m1.running ++ _).find? _ = _
    rw [List.find?_append, this]
    simp
  have hp := exec_pending during _ m hp0 hd h2
  rw [C158_objects code before m0 m1 h0] at hp
  generalize result pf fuel srt (m0.heap.afterAll before) a = r at hp
  constructor
  · intro m' hm'
    obtain ⟨t, t1, rfl, t3⟩ := hp
    simp only [step, t1] at hm'
    cases hpr : t.prog with
    | done r' =>
      rw [hpr] at hm' t3
      cases hm'
      right
      rw [← t3]
      rfl
    | readXrf k => rw [hpr] at hm'; cases hm'; left; rfl
    | readLib k => rw [hpr] at hm'; cases hm'; left; rfl
    | readBeam k => rw [hpr] at hm'; cases hm'; left; rfl
  · obtain ⟨t, t1, t2, t3⟩ := hp
    clear h2 hp0 hs h hidle h0 hc hd
    obtain ⟨j, b, p⟩ := t
    dsimp only at t2 t3
    subst t2
    induction p generalizing m with
    | done r' =>
      refine ⟨0, { m with running := m.running.filter (fun t => !(t.thread == i)), returned := m.returned ++ [(i, r')] }, ?_, ?_⟩
      · simp only [List.replicate_zero, List.nil_append, exec, step, t1]
      · rw [← t3]; rfl
    | readXrf k ih =>
      have hsome : (m.running.map (fun t => if t.thread == i then t.read m.heap else t)).find? (fun t => t.thread == i) =
          some ⟨j, b, k (m.heap.xrf b.xrf)⟩ := by
        rw [find_map (fun t => t.read m.heap) (fun t => (read_run m.heap t).1), t1]
        have : (j == i) = true := by have := List.find?_some t1; exact this
        simp only [Option.map_some, this, if_true, Running.read]
      obtain ⟨n, m', q1, q2⟩ := ih (m.heap.xrf b.xrf)
        { m with running := m.running.map (fun t => if t.thread == i then t.read m.heap else t) } hsome t3
      exact ⟨n + 1, m', by rw [List.replicate_succ, List.cons_append, exec]; exact q1, q2⟩
    | readLib k ih =>
      have hsome : (m.running.map (fun t => if t.thread == i then t.read m.heap else t)).find? (fun t => t.thread == i) =
          some ⟨j, b, k (m.heap.lib b.lib)⟩ := by
        rw [find_map (fun t => t.read m.heap) (fun t => (read_run m.heap t).1), t1]
        have : (j == i) = true := by have := List.find?_some t1; exact this
        simp only [Option.map_some, this, if_true, Running.read]
      obtain ⟨n, m', q1, q2⟩ := ih (m.heap.lib b.lib)
        { m with running := m.running.map (fun t => if t.thread == i then t.read m.heap else t) } hsome t3
      exact ⟨n + 1, m', by rw [List.replicate_succ, List.cons_append, exec]; exact q1, q2⟩
    | readBeam k ih =>
      have hsome : (m.running.map (fun t => if t.thread == i then t.read m.heap else t)).find? (fun t => t.thread == i) =
          some ⟨j, b, k (m.heap.beam b.beam)⟩ := by
        rw [find_map (fun t => t.read m.heap) (fun t => (read_run m.heap t).1), t1]
        have : (j == i) = true := by have := List.find?_some t1; exact this
        simp only [Option.map_some, this, if_true, Running.read]
      obtain ⟨n, m', q1, q2⟩ := ih (m.heap.beam b.beam)
        { m with running := m.running.map (fun t => if t.thread == i then t.read m.heap else t) } hsome t3
      exact ⟨n + 1, m', by rw [List.replicate_succ, List.cons_append, exec]; exact q1, q2⟩

/-- **C158** (when there is no race) If no call writes an object that a calculation started in this execution or already under way uses,
there is no data race, whatever the order of the steps. In particular calculations alone never race, also with the same objects. -/
theorem C158_no_race_partial (code : Args → Prog R) : ∀ (es : List (Event R)) (m : Machine R),
    (∀ w i a, .call w ∈ es → .start i a ∈ es → w.hits a = false) →
    (∀ w, .call w ∈ es → ∀ t ∈ m.running, w.hits t.args = false) → ∃ m', exec code m es = .state m'
  | [], m, _, _ => ⟨m, rfl⟩
  | e :: es, m, h1, h2 => by
    have hstep : ∃ m', step code m e = .state m' ∧ ∀ w, .call w ∈ es → ∀ t ∈ m'.running, w.hits t.args = false := by
      cases e with
      | call w =>
        have : ¬ m.running.any (fun t => w.hits t.args) = true := by
          intro ha
          obtain ⟨t, ht, hw⟩ := List.any_eq_true.1 ha
          rw [h2 w (by simp) t ht] at hw
          cases hw
        exact ⟨{ m with heap := m.heap.after w }, by simp only [step]; rw [if_neg this], fun w hw => h2 w (by simp [hw])⟩
      | start i a =>
        simp only [step]
        split
        · exact ⟨_, rfl, fun w hw => h2 w (by simp [hw])⟩
        · refine ⟨_, rfl, fun w hw t ht => ?_⟩
          rcases List.mem_append.1 ht with ht | ht
          · exact h2 w (by simp [hw]) t ht
          · rw [List.mem_singleton.1 ht]
            exact h1 w i a (by simp [hw]) (by simp)
      | read i =>
        refine ⟨_, rfl, fun w hw t ht => ?_⟩
        obtain ⟨u, hu, rfl⟩ := List.mem_map.1 ht
        have := h2 w (by simp [hw]) u hu
        split
        · rw [(read_run m.heap u).2.1]; exact this
        · exact this
      | ret i =>
        simp only [step]
        split
        · exact ⟨_, rfl, fun w hw => h2 w (by simp [hw])⟩
        · split
          · exact ⟨_, rfl, fun w hw t ht => h2 w (by simp [hw]) t (List.mem_of_mem_filter ht)⟩
          · exact ⟨_, rfl, fun w hw => h2 w (by simp [hw])⟩
    obtain ⟨m', e1, e2⟩ := hstep
    rw [exec, e1]
    exact C158_no_race_partial code es m' (fun w i a hw ha => h1 w i a (by simp [hw]) (by simp [ha])) e2

/-- **C158** (the unrestricted claim) is false: nothing keeps another thread from changing the sample while a calculation with this
configuration is under way, which is a data race. Shown for every code, configuration and new sample. -/
theorem C158_mutation_violated (code : Args → Prog R) (h : Heap R) (a : Args) (sample : List (Layer ℝ)) :
    exec code ⟨h, [], []⟩ [.start 0 a, .call (.xrf a.xrf (fun h => { h.xrf a.xrf with sample := sample }))] = .race := by
  simp [exec, step, busy, Write.hits]

/-- Two threads calculate with the same objects while a third one changes another configuration: no race, and both get their result. -/
example (code : Args → Prog R) (hc : Computes pf fuel srt code) (h : Heap R) (a b : Args) (ha : a.xrf = 0) (hb : b.xrf = 0)
    (sample : List (Layer ℝ)) :
    ∃ m n m', exec code ⟨h, [], []⟩ [.start 1 a, .start 2 b, .read 1, .call (.xrf 1 (fun h => { h.xrf 1 with sample := sample })),
        .read 2, .read 1] = .state m ∧
      exec code m (List.replicate n (.read 1) ++ [.ret 1]) = .state m' ∧
      m'.returned = m.returned ++ [(1, result pf fuel srt h a)] := by
  obtain ⟨m, hm⟩ := C158_no_race_partial code [.start 1 a, .start 2 b, .read 1,
    .call (.xrf 1 (fun h => { h.xrf 1 with sample := sample })), .read 2, .read 1] ⟨h, [], []⟩
    (by
      intro w i c hw hs
      simp only [List.mem_cons, reduceCtorEq, Event.call.injEq, Event.start.injEq, List.not_mem_nil, or_false, false_or] at hw hs
      subst hw
      rcases hs with ⟨-, rfl⟩ | ⟨-, rfl⟩ <;> simp [Write.hits, ha, hb])
    (by simp)
  obtain ⟨-, n, m', q1, q2⟩ := C158_results_partial hc ⟨h, [], []⟩ ⟨h, [], []⟩ m 1 a [] _ rfl rfl (by simp) hm
  exact ⟨m, n, m', hm, q1, q2⟩

end theorems

end Threads
end Fisx
