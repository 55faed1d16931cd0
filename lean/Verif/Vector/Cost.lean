import Verif.Vector.Lemmas

/-!
The same code with a counter of element copies made by the reallocation loop (nanovector.h:103-105).
`pushBackC_eq` shows that forgetting the counter gives the model of `Model.lean`.
-/

namespace Nanostl.Vector

variable {α β : Type}

/-- Run an action that does not count. -/
def lift (m : Act (St α) β) : Act (St α × Nat) β := fun (s, c) =>
  match m s with
  | .ok s' b => .ok (s', c) b
  | .exc s' => .exc (s', c)
  | .ub => .ub

/-- Count one element copy. -/
def tick : Act (St α × Nat) Unit := fun (s, c) => .ok (s, c + 1) ()

/-- nanovector.h:103-105 with counting. -/
def copyLoopC (dst src : Option Nat) : Nat → Nat → Act (St α × Nat) Unit
  | 0, _ => pure ()
  | n + 1, i => do
    let c ← lift (load src i)
    lift (store dst i c)
    tick
    copyLoopC dst src n (i + 1)

/-- nanovector.h:84-115 with counting. -/
def resizeC (count : Nat) : Act (St α × Nat) Unit := do
  if count < 1 then pure ()
  else
    let v ← lift getThis
    if count > v.capacity then
      let n := if count > recommendedSize v then count else recommendedSize v
      let newElements ← lift (allocate n)
      copyLoopC newElements v.elements v.size 0
      lift (deallocate v.elements)
      lift (setThis { elements := newElements, capacity := n, size := v.size })
    let v ← lift getThis
    lift (setThis { v with size := count })

/-- nanovector.h:117-120 with counting. -/
def pushBackC (r : Ref α) : Act (St α × Nat) Unit := do
  let v ← lift getThis
  resizeC ((v.size + 1) % word)
  let v ← lift getThis
  let c ← lift (deref r)
  lift (store v.elements ((v.size + word - 1) % word) c)

/-- `push_back` of each value in turn. -/
def pushAllC : List α → Act (St α × Nat) Unit
  | [] => pure ()
  | a :: l => do
    pushBackC (.ext a)
    pushAllC l

/-- The outcome of a counting run, seen as an outcome of the plain model with the counter at the end. -/
def withCount (k : Nat) (o : Out (St α) β) (k' : Nat) : Out (St α × Nat) β :=
  match o with
  | .ok s b => .ok (s, k) b
  | .exc s => .exc (s, k')
  | .ub => .ub

theorem load_noexc {p i} {s s' : St α} : load p i s ≠ .exc s' := by
  obtain ⟨h, v⟩ := s
  simp only [load]
  split
  · simp
  · split
    · simp
    · split <;> simp

theorem store_noexc {p i c} {s s' : St α} : store p i c s ≠ .exc s' := by
  obtain ⟨h, v⟩ := s
  simp only [store]
  split
  · simp
  · split
    · simp
    · split <;> simp

theorem lift_apply (m : Act (St α) β) (s : St α) (k : Nat) : lift m (s, k) = withCount k (m s) k := rfl

theorem copyLoop_noexc (dst src : Option Nat) : ∀ (n i : Nat) (s x : St α), copyLoop dst src n i s ≠ .exc x := by
  intro n
  induction n with
  | zero => intro i s x; simp [copyLoop, Act.pure_apply]
  | succ n ihn =>
    intro i s x hc
    simp only [copyLoop] at hc
    rw [Act.bind_apply] at hc
    cases hl : load src i s with
    | ub => simp [hl] at hc
    | exc y => exact absurd hl load_noexc
    | ok y c =>
      simp only [hl] at hc
      rw [Act.bind_apply] at hc
      cases hs : store dst i c y with
      | ub => simp [hs] at hc
      | exc y => exact absurd hs store_noexc
      | ok z c =>
        simp only [hs] at hc
        exact ihn (i + 1) z x hc

theorem copyLoopC_eq (dst src : Option Nat) : ∀ (n i : Nat) (s : St α) (k : Nat),
    copyLoopC dst src n i (s, k) = withCount (k + n) (copyLoop dst src n i s) k := by
  intro n
  induction n with
  | zero => intro i s k; rfl
  | succ n ih =>
    intro i s k
    simp only [copyLoopC, copyLoop]
    rw [Act.bind_apply, Act.bind_apply, lift_apply]
    cases hl : load src i s with
    | ub => rfl
    | exc s' => exact absurd hl load_noexc
    | ok s' c =>
      simp only [withCount]
      rw [Act.bind_apply, Act.bind_apply, lift_apply]
      cases hs : store dst i c s' with
      | ub => rfl
      | exc s'' => exact absurd hs store_noexc
      | ok s'' u =>
        simp only [withCount]
        rw [Act.bind_apply]
        simp only [tick]
        rw [ih]
        have : k + 1 + n = k + (n + 1) := by omega
        rw [this]
        cases hc : copyLoop dst src n (i + 1) s'' with
        | ok => rfl
        | ub => rfl
        | exc x =>
          exact absurd hc (copyLoop_noexc _ _ _ _ _ _)

theorem deallocate_noexc {p} {s s' : St α} : deallocate p s ≠ .exc s' := by
  obtain ⟨h, v⟩ := s
  simp only [deallocate]
  split
  · simp
  · split <;> simp

/-- Copies made by `resize n`. -/
def resizeCost (v : Vec) (n : Nat) : Nat := if v.capacity < n then v.size else 0

theorem resizeC_eq (n : Nat) (h : Heap α) (v : Vec) (k : Nat) :
    resizeC n ((h, v), k) = withCount (k + resizeCost v n) (resize n (h, v)) k := by
  simp only [resizeC, resize, resizeCost]
  by_cases h1 : n < 1
  · simp only [h1, if_true]
    have : ¬ v.capacity < n := by omega
    simp [Act.pure_apply, withCount, this]
  · simp only [h1, if_false]
    rw [Act.bind_apply, Act.bind_apply, lift_apply]
    simp only [getThis, withCount]
    by_cases h2 : v.capacity < n
    · simp only [h2, gt_iff_lt, if_true]
      rw [Act.bind_apply, Act.bind_apply, lift_apply]
      cases ha : allocate (if recommendedSize v < n then n else recommendedSize v) (h, v) with
      | ub => rfl
      | exc s => rfl
      | ok s p =>
        simp only [withCount]
        rw [Act.bind_apply, Act.bind_apply, copyLoopC_eq]
        cases hc : copyLoop p v.elements v.size 0 s with
        | ub => rfl
        | exc s => exact absurd hc (copyLoop_noexc _ _ _ _ _ _)
        | ok s u =>
          simp only [withCount]
          rw [Act.bind_apply, Act.bind_apply, lift_apply]
          cases hd : deallocate v.elements s with
          | ub => rfl
          | exc s => exact absurd hd deallocate_noexc
          | ok s u => rfl
    · simp only [h2, gt_iff_lt, if_false]; rfl

theorem pushBackC_eq (r : Ref α) (h : Heap α) (v : Vec) (k : Nat) :
    pushBackC r ((h, v), k) = withCount (k + resizeCost v ((v.size + 1) % word)) (pushBack r (h, v)) k ∨
      pushBack r (h, v) = .ub := by
  simp only [pushBackC, pushBack]
  rw [Act.bind_apply, Act.bind_apply, lift_apply]
  simp only [getThis, withCount]
  rw [Act.bind_apply, Act.bind_apply, resizeC_eq]
  cases hr : resize ((v.size + 1) % word) (h, v) with
  | ub => right; rfl
  | exc s => left; rfl
  | ok s u =>
    simp only [withCount]
    rw [Act.bind_apply, Act.bind_apply, lift_apply]
    simp only [getThis, withCount]
    rw [Act.bind_apply, Act.bind_apply, lift_apply]
    cases hd : deref r s with
    | ub => right; rfl
    | exc s =>
      exfalso
      cases r with
      | ext a => simp [deref, Act.pure_apply] at hd
      | cell p i => simp only [deref] at hd; exact load_noexc hd
    | ok s2 c =>
      simp only [withCount]
      rw [lift_apply]
      cases hs : store s.2.elements ((s.2.size + word - 1) % word) c s2 with
      | ub => right; rfl
      | exc s => exact absurd hs store_noexc
      | ok s u => left; rfl

/-- State of a vector built only by `push_back`, after `k` of them. -/
def Built (k : Nat) (calls0 : Nat) (h : Heap α) (v : Vec) (c : Nat) : Prop :=
  WF h v ∧ Bnd h ∧ v.size = k ∧
  ((k = 0 ∧ v.capacity = 0 ∧ c = 0 ∧ h.calls = calls0) ∨
   ∃ j, v.capacity = 2 ^ j ∧ 2 ^ j < 2 * k ∧ c + 1 = 2 ^ j ∧ h.calls = calls0 + j + 1)

theorem pushBack_calls {h : Heap α} {v : Vec} {a : α} (w : WF h v) (hb : Bnd h) :
    (v.size < v.capacity → ∃ h', pushBack (.ext a) (h, v) = .ok (h', { v with size := v.size + 1 }) () ∧ h'.calls = h.calls) ∧
    (v.size = v.capacity → (∃ h', pushBack (.ext a) (h, v) = .exc (h', v)) ∨
      ∃ h' p, pushBack (.ext a) (h, v) = .ok (h', { elements := p, capacity := max (v.size + 1) (2 * v.capacity), size := v.size + 1 }) () ∧
        h'.calls = h.calls + 1) := by
  constructor
  · intro hs
    rcases w with ⟨e1, e2, e3⟩ | ⟨p, b, e1, e2, e3, e4, e5, e6⟩
    · omega
    · exact ⟨_, pushBack_fits e1 e2 e3 hs e6 (c := some a) (fun u => rfl), rfl⟩
  · intro hs
    have hcp := wf_cap_lt w
    have e1 : (v.size + 1) % word = v.size + 1 := by unfold word; omega
    simp only [pushBack]
    rw [Act.bind_ok (show getThis (h, v) = .ok (h, v) v from rfl), e1]
    have hg := resize_grow (n := v.size + 1) w hb (by omega)
    split at hg
    · rw [Act.bind_exc hg]; exact .inl ⟨_, rfl⟩
    · right
      have e2 : (v.size + 1 + word - 1) % word = v.size := by unfold word; omega
      rw [Act.bind_ok hg]
      rw [Act.bind_ok (show getThis (grownHeap h v (v.size + 1), _) = .ok (grownHeap h v (v.size + 1), _) _ from rfl)]
      rw [Act.bind_ok (show deref (.ext a) (grownHeap h v (v.size + 1), _) = .ok (grownHeap h v (v.size + 1), _) (some a) from rfl)]
      simp only [e2]
      have hmem : (grownHeap h v (v.size + 1)).mem h.next =
          some (view h v ++ List.replicate (grown v (v.size + 1) - v.size) h.fresh) := by simp [grownHeap]
      have hg1 : 1 ≤ grown v (v.size + 1) - v.size := by unfold grown; omega
      have := view_length w
      rw [store_ok _ hmem (by simp; omega)]
      exact ⟨_, _, rfl, rfl⟩

theorem built_step {k c calls0 : Nat} {h : Heap α} {v : Vec} {a : α} (b : Built k calls0 h v c) :
    (∃ s, pushBackC (.ext a) ((h, v), c) = .exc s) ∨
    ∃ h' v' c', pushBackC (.ext a) ((h, v), c) = .ok ((h', v'), c') () ∧ Built (k + 1) calls0 h' v' c' := by
  obtain ⟨w, hb, hsz, hinv⟩ := b
  have hcp := wf_cap_lt w
  have hle := wf_size_le w
  have hsp := pushBack_spec (r := .ext a) (c := some a) w hb rfl
  have e1 : (v.size + 1) % word = v.size + 1 := by unfold word; omega
  have hC := pushBackC_eq (.ext a) h v c
  rw [e1] at hC
  obtain ⟨p1, p2⟩ := pushBack_calls (a := a) w hb
  by_cases hs : v.size < v.capacity
  · obtain ⟨h', ho, hcalls⟩ := p1 hs
    rw [ho] at hsp hC
    cases hsp with
    | ok _ _ w' f e _ _ =>
      rcases hC with hC | hC
      · right
        refine ⟨_, _, _, hC, w', f.bnd, by simp only; omega, ?_⟩
        rcases hinv with ⟨h1, h2, _⟩ | ⟨j, h1, h2, h3, h4⟩
        · omega
        · right
          refine ⟨j, h1, by omega, ?_, by omega⟩
          have : ¬ v.capacity < v.size + 1 := by omega
          simp only [resizeCost, this, if_false]; omega
      · cases hC
  · rcases p2 (by omega) with ⟨h', ho⟩ | ⟨h', p, ho, hcalls⟩
    · rw [ho] at hC
      rcases hC with hC | hC
      · exact .inl ⟨_, hC⟩
      · cases hC
    · rw [ho] at hsp hC
      cases hsp with
      | ok _ _ w' f e _ _ =>
        rcases hC with hC | hC
        · right
          refine ⟨_, _, _, hC, w', f.bnd, by simp only; omega, ?_⟩
          right
          have hlt : v.capacity < v.size + 1 := by omega
          rcases hinv with ⟨h1, h2, h3, h4⟩ | ⟨j, h1, h2, h3, h4⟩
          · refine ⟨0, by simp only; omega, by omega, ?_, by omega⟩
            simp only [resizeCost, hlt, if_true]; omega
          · have hp : 2 ^ (j + 1) = 2 * 2 ^ j := by rw [Nat.pow_succ]; omega
            refine ⟨j + 1, by simp only; omega, by omega, ?_, by omega⟩
            simp only [resizeCost, hlt, if_true]; omega
        · cases hC

theorem built_run : ∀ (l : List α) (k c calls0 : Nat) (h : Heap α) (v : Vec), Built k calls0 h v c →
    (∃ s, pushAllC l ((h, v), c) = .exc s) ∨
    ∃ h' v' c', pushAllC l ((h, v), c) = .ok ((h', v'), c') () ∧ Built (k + l.length) calls0 h' v' c' := by
  intro l
  induction l with
  | nil => intro k c calls0 h v b; exact .inr ⟨h, v, c, rfl, b⟩
  | cons a l ih =>
    intro k c calls0 h v b
    simp only [pushAllC]
    rcases built_step (a := a) b with ⟨s, hs⟩ | ⟨h', v', c', ho, b'⟩
    · rw [Act.bind_exc hs]; exact .inl ⟨_, rfl⟩
    · rw [Act.bind_ok ho]
      have := ih _ _ _ _ _ b'
      rw [List.length_cons, show k + (l.length + 1) = k + 1 + l.length by omega]
      exact this

end Nanostl.Vector
