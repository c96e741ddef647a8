import Verif.Model.Mem
/-! Reading and writing memory. -/
namespace Yenc.Mem
open Yenc

theorem wr_apply (m : Mem) (p : Nat) (l : List Byte) (a : Nat) :
    m.wr p l a = if h : p ≤ a ∧ a < p + l.length then l[a - p] else m a := by
  induction l generalizing m p with
  | nil => simp only [wr, List.length_nil]; rw [dif_neg (by omega)]
  | cons b bs ih =>
    simp only [wr, ih, List.length_cons]
    by_cases h1 : p + 1 ≤ a ∧ a < p + 1 + bs.length
    · rw [dif_pos h1, dif_pos (by omega)]
      have : a - p = (a - (p + 1)) + 1 := by omega
      simp only [this, List.getElem_cons_succ]
    · rw [dif_neg h1]
      by_cases h2 : a = p
      · subst h2
        rw [dif_pos (by omega)]
        simp [set]
      · rw [dif_neg (by omega)]
        simp [set, h2]

theorem wr_append (m : Mem) (p : Nat) (a b : List Byte) : m.wr p (a ++ b) = (m.wr p a).wr (p + a.length) b := by
  induction a generalizing m p with
  | nil => rfl
  | cons x xs ih => simp only [List.cons_append, wr, ih, List.length_cons]; congr 1; omega

theorem wr_out (m : Mem) (p : Nat) (l : List Byte) (a : Nat) (h : a < p ∨ p + l.length ≤ a) : m.wr p l a = m a := by
  rw [wr_apply, dif_neg (by omega)]

@[simp] theorem rdn_length (m : Mem) (a n : Nat) : (m.rdn a n).length = n := by
  induction n generalizing a with
  | zero => rfl
  | succ n ih => simp [rdn, ih]

@[simp] theorem rd_length (m : Mem) (a e : Nat) : (m.rd a e).length = e - a := by simp [rd]

theorem rdn_congr {m m' : Mem} {a n : Nat} (h : ∀ x, a ≤ x → x < a + n → m x = m' x) : m.rdn a n = m'.rdn a n := by
  induction n generalizing a with
  | zero => rfl
  | succ n ih =>
    simp only [rdn]
    rw [h a (by omega) (by omega), ih (fun x h1 h2 => h x (by omega) (by omega))]

theorem rd_congr {m m' : Mem} {a e : Nat} (h : ∀ x, a ≤ x → x < e → m x = m' x) : m.rd a e = m'.rd a e :=
  rdn_congr (fun x h1 h2 => h x h1 (by omega))

theorem rd_cons (m : Mem) {i e : Nat} (h : i < e) : m.rd i e = m i :: m.rd (i + 1) e := by
  unfold rd
  obtain ⟨k, hk⟩ : ∃ k, e - i = k + 1 := ⟨e - i - 1, by omega⟩
  rw [hk, rdn]; congr 2; omega

theorem rd_nil (m : Mem) {i e : Nat} (h : e ≤ i) : m.rd i e = [] := by
  unfold rd
  have : e - i = 0 := by omega
  rw [this, rdn]

theorem rdn_append (m : Mem) (a j k : Nat) : m.rdn a (j + k) = m.rdn a j ++ m.rdn (a + j) k := by
  induction j generalizing a with
  | zero => simp [rdn]
  | succ j ih =>
    have : j + 1 + k = (j + k) + 1 := by omega
    rw [this]; simp only [rdn, ih, List.cons_append]
    congr 3; omega

theorem rd_split (m : Mem) {a i e : Nat} (h1 : a ≤ i) (h2 : i ≤ e) : m.rd a e = m.rd a i ++ m.rd i e := by
  unfold rd
  have : e - a = (i - a) + (e - i) := by omega
  rw [this, rdn_append]; congr 2; omega

theorem rd_drop (m : Mem) {a e k : Nat} : (m.rd a e).drop k = m.rd (a + k) e := by
  by_cases h : a + k ≤ e
  · rw [rd_split m (Nat.le_add_right a k) h, List.drop_left']
    simp
  · rw [rd_nil (i := a + k) m (by omega), List.drop_eq_nil_of_le]
    simp; omega

theorem rdn_get (m : Mem) (a n i : Nat) (h : i < n) : (m.rdn a n)[i]'(by simpa using h) = m (a + i) := by
  induction n generalizing a i with
  | zero => omega
  | succ n ih =>
    cases i with
    | zero => rfl
    | succ i =>
      simp only [rdn, List.getElem_cons_succ]
      rw [ih (a + 1) i (by omega)]
      congr 1; omega

theorem rdn_wr (m : Mem) (p : Nat) (l : List Byte) : (m.wr p l).rdn p l.length = l := by
  apply List.ext_getElem
  · simp
  · intro i h1 h2
    rw [rdn_get _ _ _ _ h2, wr_apply, dif_pos (by omega)]
    congr 1; omega

theorem rdn_wr_prefix (m : Mem) (p : Nat) (a b : List Byte) : (m.wr p (a ++ b)).rdn p a.length = a := by
  have h := rdn_wr m p (a ++ b)
  rw [List.length_append, rdn_append] at h
  exact List.append_inj_left h (by simp)

theorem rd_wr (m : Mem) (p : Nat) (l : List Byte) : (m.wr p l).rd p (p + l.length) = l := by
  unfold rd; rw [Nat.add_sub_cancel_left, rdn_wr]

/-- Reading away from where was written. -/
theorem rd_wr_of (m : Mem) (p : Nat) (l : List Byte) {i e : Nat} (h : p + l.length ≤ i ∨ e ≤ p) :
    (m.wr p l).rd i e = m.rd i e :=
  rd_congr (fun x h1 h2 => wr_out m p l x (by omega))

theorem rd_set_of (m : Mem) (p : Nat) (b : Byte) {i e : Nat} (h : p < i ∨ e ≤ p) : (m.set p b).rd i e = m.rd i e :=
  rd_congr (fun x h1 h2 => by simp only [set]; rw [if_neg (by omega)])

/-- A second store that covers what the first left beyond its useful part. -/
theorem wr_wr (m : Mem) (p : Nat) (a t s : List Byte) (h : t.length ≤ s.length) :
    (m.wr p (a ++ t)).wr (p + a.length) s = m.wr p (a ++ s) := by
  funext x
  simp only [wr_apply, List.length_append]
  by_cases h1 : p + a.length ≤ x ∧ x < p + a.length + s.length
  · rw [dif_pos h1, dif_pos (by omega), List.getElem_append_right (by omega)]
    congr 1; omega
  · rw [dif_neg h1]
    by_cases h2 : p ≤ x ∧ x < p + a.length
    · rw [dif_pos (by omega), dif_pos (by omega), List.getElem_append_left (by omega), List.getElem_append_left (by omega)]
    · rw [dif_neg (by omega), dif_neg (by omega)]

/-- Memory holding `l` at `a`. -/
theorem rd_of_list (m : Mem) (a : Nat) (l : List Byte) : (m.wr a l).rd a (a + l.length) = l := rd_wr m a l

end Yenc.Mem
