import Verif.Model.Threads
import Mathlib.Tactic.ByContra
/-! The invariant of the threads. -/
namespace Yenc.Threads
variable {G R : Type}

/-- What holds in every state that can be reached. -/
def Inv (init : List (G → G)) (g0 : G) (s : Sys G R) : Prop :=
  (∀ e ∈ s.log, e.2 = e.1.run (runAll init g0)) ∧
  match s.once with
  | .never => s.g = g0 ∧ ∀ t, s.th t = .unloaded
  | .running t => (∃ k, s.th t = .starting (init.drop k) ∧ s.g = runAll (init.take k) g0) ∧ ∀ u, u ≠ t → s.th u = .unloaded
  | .done => s.g = runAll init g0 ∧ ∀ t, s.th t = .unloaded ∨ s.th t = .idle ∨ ∃ f p, s.th t = .calling f p ∧ p.run s.g = f.run s.g

theorem set_same (s : Sys G R) (t : Nat) (x : Thread G R) : (s.set t x).th t = x := by simp [Sys.set]
theorem set_other (s : Sys G R) (t u : Nat) (x : Thread G R) (h : u ≠ t) : (s.set t x).th u = s.th u := by simp [Sys.set, h]

theorem inv_start (init : List (G → G)) (g0 : G) : Inv init g0 (Sys.start g0 : Sys G R) := by simp [Inv, Sys.start]

/-- Once loading has finished, a thread may go on with anything that fits. -/
theorem Inv.done_set {init : List (G → G)} {g0 : G} {s : Sys G R} {t : Nat} {x : Thread G R} {l : List (Prog G R × R)} (hi : Inv init g0 s) (ho : s.once = .done)
    (hl : ∀ e ∈ l, e.2 = e.1.run (runAll init g0)) (hx : x = .unloaded ∨ x = .idle ∨ ∃ f p, x = .calling f p ∧ p.run s.g = f.run s.g) :
    Inv init g0 ({ s with log := l }.set t x) := by
  obtain ⟨-, h2⟩ := hi
  rw [ho] at h2
  refine ⟨hl, ?_⟩
  have e : ({ s with log := l }.set t x).once = .done := ho
  rw [e]
  refine ⟨h2.1, fun u => ?_⟩
  by_cases hu : u = t
  · subst hu; rw [set_same]; exact hx
  · rw [set_other _ _ _ _ hu]; exact h2.2 u

/-- A thread that is idle or in a call has seen loading finish. -/
theorem Inv.done {init : List (G → G)} {g0 : G} {s : Sys G R} {t : Nat} (hi : Inv init g0 s) (h : s.th t = .idle ∨ ∃ f p, s.th t = .calling f p) : s.once = .done := by
  obtain ⟨-, h2⟩ := hi
  cases ho : s.once with
  | done => rfl
  | never =>
    rw [ho] at h2
    rw [h2.2 t] at h; simp at h
  | running u =>
    rw [ho] at h2
    obtain ⟨⟨r, h3, -⟩, h4⟩ := h2
    by_cases hu : t = u
    · subst hu; rw [h3] at h; simp at h
    · rw [h4 t hu] at h; simp at h

/-- The thread that starts up is the one `init_once` says. -/
theorem Inv.starting {init : List (G → G)} {g0 : G} {s : Sys G R} {t : Nat} {r : List (G → G)} (hi : Inv init g0 s) (h : s.th t = .starting r) :
    s.once = .running t ∧ (∃ k, r = init.drop k ∧ s.g = runAll (init.take k) g0) ∧ ∀ u, u ≠ t → s.th u = .unloaded := by
  obtain ⟨-, h2⟩ := hi
  cases ho : s.once with
  | never =>
    rw [ho] at h2
    rw [h2.2 t] at h; simp at h
  | running u =>
    rw [ho] at h2
    obtain ⟨⟨r', h3, h5⟩, h4⟩ := h2
    by_cases hu : t = u
    · subst hu; rw [h3] at h
      simp only [Thread.starting.injEq] at h
      subst h
      exact ⟨rfl, ⟨r', rfl, h5⟩, h4⟩
    · rw [h4 t hu] at h; simp at h
  | done =>
    rw [ho] at h2
    rcases h2.2 t with h3 | h3 | ⟨f, p, h3, -⟩ <;> rw [h3] at h <;> simp at h

theorem inv_step {init : List (G → G)} {g0 : G} {s u : Sys G R} (hi : Inv init g0 s) (h : Step init s u) : Inv init g0 u := by
  cases h with
  | enter t h ho =>
    obtain ⟨h1, h2⟩ := hi
    rw [ho] at h2
    refine ⟨h1, ?_⟩
    simp only [Sys.set]
    refine ⟨⟨0, by simp, by simp [runAll, h2.1]⟩, fun u hu => ?_⟩
    simp [hu, h2.2 u]
  | write t f r h =>
    obtain ⟨h1, ⟨k, hk, h2⟩, h3⟩ := hi.starting h
    have hk1 : k < init.length := by
      by_contra hc
      rw [List.drop_eq_nil_of_le (by omega)] at hk; simp at hk
    rw [List.drop_eq_getElem_cons hk1, List.cons.injEq] at hk
    refine ⟨hi.1, ?_⟩
    have e : ({ s with g := f s.g }.set t (.starting r)).once = .running t := h1
    rw [e]
    refine ⟨⟨k + 1, by rw [set_same, hk.2], ?_⟩, fun u hu => ?_⟩
    · show f s.g = _
      rw [h2, hk.1, ← List.take_append_getElem hk1]
      simp only [runAll, List.foldl_append, List.foldl_cons, List.foldl_nil]
    · rw [set_other _ _ _ _ hu]; exact h3 u hu
  | finish t h =>
    obtain ⟨h1, ⟨k, hk, h2⟩, h3⟩ := hi.starting h
    have hk1 : init.length ≤ k := List.drop_eq_nil_iff.1 hk.symm
    rw [List.take_of_length_le hk1] at h2
    refine ⟨hi.1, ?_⟩
    simp only [Sys.set]
    refine ⟨h2, fun u => ?_⟩
    by_cases hu : u = t
    · simp [hu]
    · simp [hu, h3 u hu]
  | load t h ho => exact hi.done_set ho hi.1 (.inr (.inl rfl))
  | reload t h ho => exact hi.done_set ho hi.1 (.inr (.inl rfl))
  | call t p h => exact hi.done_set (hi.done (.inl h)) hi.1 (.inr (.inr ⟨p, p, rfl, rfl⟩))
  | read t f k h =>
    have ho := hi.done (.inr ⟨_, _, h⟩)
    refine hi.done_set ho hi.1 (.inr (.inr ⟨f, k s.g, rfl, ?_⟩))
    have h2 := hi.2
    rw [ho] at h2
    rcases h2.2 t with h3 | h3 | ⟨f', p', h3, h4⟩
    · rw [h3] at h; simp at h
    · rw [h3] at h; simp at h
    · rw [h3] at h
      simp only [Thread.calling.injEq] at h
      obtain ⟨rfl, rfl⟩ := h
      exact h4
  | ret t f r h =>
    have ho := hi.done (.inr ⟨_, _, h⟩)
    refine hi.done_set ho ?_ (.inr (.inl rfl))
    intro e he
    rcases List.mem_cons.1 he with rfl | he
    · have h2 := hi.2
      rw [ho] at h2
      rcases h2.2 t with h3 | h3 | ⟨f', p', h3, h4⟩
      · rw [h3] at h; simp at h
      · rw [h3] at h; simp at h
      · rw [h3] at h
        simp only [Thread.calling.injEq] at h
        obtain ⟨rfl, rfl⟩ := h
        rw [← h2.1, ← h4]; rfl
    · exact hi.1 e he
  | exit t h => exact hi.done_set (hi.done (.inl h)) hi.1 (.inl rfl)

theorem inv_run {init : List (G → G)} {g0 : G} {s : Sys G R} (h : Run init (Sys.start g0) s) : Inv init g0 s := by
  generalize hs : (Sys.start g0 : Sys G R) = a at h
  induction h with
  | refl => rw [← hs]; exact inv_start init g0
  | step _ h2 ih => exact inv_step ih h2

theorem Run.trans {init : List (G → G)} {a b c : Sys G R} (h1 : Run init a b) (h2 : Run init b c) : Run init a c := by
  induction h2 with
  | refl => exact h1
  | step _ h ih => exact .step ih h

/-- A thread in a call can finish it on its own. -/
theorem finish_call {init : List (G → G)} (f p : Prog G R) (s : Sys G R) (t : Nat) (h : s.th t = .calling f p) : ∃ u, Run init s u ∧ u.th t = .idle := by
  induction p generalizing s with
  | ret r => exact ⟨_, .step (.refl _) (.ret s t f r h), set_same _ _ _⟩
  | read k ih =>
    obtain ⟨u, h1, h2⟩ := ih s.g (s.set t (.calling f (k s.g))) (set_same _ _ _)
    exact ⟨u, Run.trans (.step (.refl _) (.read s t f k h)) h1, h2⟩

/-- The thread that starts up can finish on its own. -/
theorem finish_start {init : List (G → G)} (r : List (G → G)) (s : Sys G R) (t : Nat) (h : s.th t = .starting r) :
    ∃ u, Run init s u ∧ u.once = .done ∧ u.th t = .idle ∧ ∀ v, v ≠ t → u.th v = s.th v := by
  induction r generalizing s with
  | nil => exact ⟨_, .step (.refl _) (.finish s t h), rfl, set_same _ _ _, fun v hv => set_other _ _ _ _ hv⟩
  | cons f r ih =>
    obtain ⟨u, h1, h2, h3, h4⟩ := ih ({ s with g := f s.g }.set t (.starting r)) (set_same _ _ _)
    exact ⟨u, Run.trans (.step (.refl _) (.write s t f r h)) h1, h2, h3, fun v hv => (h4 v hv).trans (set_other _ _ _ _ hv)⟩

end Yenc.Threads
