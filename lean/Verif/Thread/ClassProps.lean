import Verif.Thread.Class

/-!
Property C58: a thread runs its function. False of `class thread`; true of the functions below it, except that the documented use joins twice.
-/

namespace Nanostl.Thread

/-- C58 is false: constructing a thread with a function starts nothing, the thread is not joinable, and join returns at once without the function
having run. -/
theorem c58_false (f : Nat) (w : World) :
    (Obj.new f w).2 = w ∧ (Obj.new f w).1.joinable = false ∧ (Obj.new f w).1.join (Obj.new f w).2 = some (Obj.new f w) ∧
    (Obj.new f w).1.destroy (Obj.new f w).2 = some w := ⟨rfl, rfl, rfl, rfl⟩

/-- What is left of C58: a thread object without a function is not joinable, and joining or destroying it has no effect and does not block. -/
theorem c58_default_partial (w : World) : Obj.default.joinable = false ∧ Obj.default.join w = some (Obj.default, w) ∧ Obj.default.destroy w = some w :=
  ⟨rfl, rfl, rfl⟩

theorem left_step (n : Nat) (t : Os) (h : t.left = some n) : ∀ k, Os.steps k t =
    { t with left := if k ≤ n then some (n - k) else none } := by
  intro k
  induction k generalizing n t with
  | zero => obtain ⟨l, s, r, j⟩ := t; simp only at h; subst h; simp [Os.steps]
  | succ k ih =>
    rw [Os.steps]
    obtain ⟨l, s, r, j⟩ := t
    simp only at h; subst h
    cases n with
    | zero =>
      have : ∀ k, Os.steps k ⟨none, s, r, j⟩ = ⟨none, s, r, j⟩ := by
        intro k; induction k with
        | zero => rfl
        | succ k ih => rw [Os.steps]; exact ih
      show Os.steps k ⟨none, s, r, j⟩ = _
      rw [this, if_neg (by omega)]
    | succ n =>
      show Os.steps k ⟨some n, s, r, j⟩ = _
      rw [ih n _ rfl]
      by_cases hk : k ≤ n
      · rw [if_pos hk, if_pos (by omega)]; simp
      · rw [if_neg hk, if_neg (by omega)]

/-- C58 for `thread_create` and `thread_join`: however the steps of the thread and the attempts to join interleave, join is never undefined, and if it
returns, the function has run to its end, once, and its result is returned; and it does return once the thread has been given enough steps. -/
theorem c58_libs (n : Nat) (r : Int) (ks : List Nat) :
    joinLoop ks (Os.create n r) ≠ .ub ∧
    (∀ t r', joinLoop ks (Os.create n r) = .done t r' → t.left = none ∧ t.started = 1 ∧ r' = r) ∧
    (n < ks.sum → ∃ t, joinLoop ks (Os.create n r) = .done t r) := by
  unfold Os.create
  induction ks generalizing n with
  | nil => exact ⟨by simp [joinLoop], by simp [joinLoop], by simp⟩
  | cons k ks ih =>
    have e := left_step n ⟨some n, 1, r, false⟩ rfl k
    by_cases hk : k ≤ n
    · rw [if_pos hk] at e
      have e2 : joinLoop (k :: ks) ⟨some n, 1, r, false⟩ = joinLoop ks ⟨some (n - k), 1, r, false⟩ := by
        rw [joinLoop, e]; rfl
      rw [e2]
      obtain ⟨h1, h2, h3⟩ := ih (n - k)
      exact ⟨h1, h2, fun h => h3 (by rw [List.sum_cons] at h; omega)⟩
    · rw [if_neg hk] at e
      have e2 : joinLoop (k :: ks) ⟨some n, 1, r, false⟩ = .done ⟨none, 1, r, true⟩ r := by
        rw [joinLoop, e]; rfl
      rw [e2]
      refine ⟨by simp, ?_, fun _ => ⟨_, rfl⟩⟩
      intro t r' h
      injection h with h4 h5
      subst h4 h5
      exact ⟨rfl, rfl, rfl⟩

/-- Joining and then destroying a thread, as in the example of the documentation (libs_thread.h:132-138) and as `thread_join`'s documentation requires, is
undefined behaviour outside Windows. -/
theorem c58_join_destroy_false (n : Nat) (r : Int) (ks : List Nat) (t : Os) (r' : Int) (h : joinLoop ks (Os.create n r) = .done t r') : threadDestroy t = .ub := by
  have : t.joined = true := by
    unfold Os.create at h
    induction ks generalizing n with
    | nil => exact absurd h (by simp [joinLoop])
    | cons k ks ih =>
      have e := left_step n ⟨some n, 1, r, false⟩ rfl k
      by_cases hk : k ≤ n
      · rw [if_pos hk] at e
        exact ih (n - k) (by rw [← h, joinLoop, e]; rfl)
      · rw [if_neg hk] at e
        have e2 : joinLoop (k :: ks) ⟨some n, 1, r, false⟩ = .done ⟨none, 1, r, true⟩ r := by
          rw [joinLoop, e]; rfl
        rw [e2] at h
        injection h with h4 h5
        subst h4; rfl
  rw [threadDestroy, threadJoin, if_pos this]

/-- For an object that has a running thread (which no constructor gives it): join returns only when the thread's function has returned, the object is then
not joinable, joining it again has no effect, and destroying it has none either, so that nothing is joined twice. -/
theorem c58_obj_join {t t' : Obj} {w w' : World} {h : Nat} {o : Os} (ht : t.handle = some h) (ho : w.os[h]? = some o) (hj : o.joined = false)
    (hr : t.join w = some (t', w')) : o.left = none ∧ t.joinable = true ∧ t'.joinable = false ∧ t'.join w' = some (t', w') ∧ t'.destroy w' = some w' ∧
    (∀ o', w'.os[h]? = some o' → o'.joined = true) ∧ (∀ k, k ≠ h → w'.os[k]? = w.os[k]?) := by
  obtain ⟨_⟩ := t
  simp only at ht
  subst ht
  unfold Obj.join at hr
  simp only [ho, threadJoin, hj, Bool.false_eq_true, if_false] at hr
  cases hl : o.left with
  | some n => rw [hl] at hr; simp at hr
  | none =>
    rw [hl] at hr
    simp only [Option.some.injEq, Prod.mk.injEq] at hr
    obtain ⟨rfl, rfl⟩ := hr
    refine ⟨rfl, rfl, rfl, rfl, rfl, ?_, ?_⟩
    · intro o' ho'
      have hlen : h < w.os.length := (List.getElem?_eq_some_iff.1 ho).1
      simp only [List.getElem?_set_self hlen, Option.some.injEq] at ho'
      subst ho'
      rfl
    · intro k hk
      exact List.getElem?_set_ne (Ne.symm hk)

/-- Destroying such an object without joining waits for the thread. -/
theorem c58_obj_destroy {t : Obj} {w w' : World} {h : Nat} {o : Os} (ht : t.handle = some h) (ho : w.os[h]? = some o) (hj : o.joined = false)
    (hr : t.destroy w = some w') : o.left = none := by
  obtain ⟨_⟩ := t
  simp only at ht
  subst ht
  unfold Obj.destroy at hr
  simp only [ho, threadDestroy, threadJoin, hj, Bool.false_eq_true, if_false] at hr
  cases hl : o.left with
  | some n => rw [hl] at hr; simp at hr
  | none => rfl

example := c58_obj_join (t := ⟨some 0⟩) (w := ⟨[⟨none, 1, 7, false⟩], fun _ => 0⟩) (h := 0) (o := ⟨none, 1, 7, false⟩) rfl rfl rfl rfl
example := c58_obj_destroy (t := ⟨some 0⟩) (w := ⟨[⟨none, 1, 7, false⟩], fun _ => 0⟩) (h := 0) (o := ⟨none, 1, 7, false⟩) rfl rfl rfl rfl

example : joinLoop [1, 0, 2] (Os.create 2 7) = .done ⟨none, 1, 7, true⟩ 7 := rfl

end Nanostl.Thread
