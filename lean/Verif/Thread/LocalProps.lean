import Verif.Thread.Local
import Mathlib.Tactic.NormNum
import Mathlib.Tactic.Ring

/-!
Properties C111 and C112: `thread_timer_wait` waits as long as it is told, and thread local storage gives every thread its own values.
-/

namespace Nanostl.Thread

namespace Spec

/-- What the system does when it interrupts a sleep: what is left and what has passed are together at least what was asked for. -/
def Honest : List Interrupt → Timespec → Prop
  | [], _ => True
  | i :: is, req => i.rem.valid = true ∧ req.ns ≤ i.slept + i.rem.ns ∧ Honest is i.rem

/-- The same with a clock that loses nothing. -/
def Exact : List Interrupt → Timespec → Prop
  | [], _ => True
  | i :: is, req => i.rem.valid = true ∧ req.ns = i.slept + i.rem.ns ∧ Exact is i.rem

/-- The value of thread `t` for an index, from the calls so far and what they returned, the latest first: that of the last `thread_tls_set` of the thread
since the index was created, null if there is none. `none`: no such index. -/
def value (t tls : Nat) : List (TlsOp × Nat) → Option Nat
  | [] => none
  | (.create (some _), r) :: h => if r = tls then some 0 else value t tls h
  | (.create none, _) :: h => value t tls h
  | (.destroy x, _) :: h => if x = tls then none else value t tls h
  | (.set u x v, _) :: h => if x = tls ∧ u = t then some v else value t tls h
  | (.get _ _, _) :: h => value t tls h

/-- The index a call uses. -/
def index : TlsOp → Option Nat
  | .create _ => none
  | .destroy x => some x
  | .set _ x _ => some x
  | .get _ x => some x

end Spec

theorem toSigned_of (w : Nat) (x : Int) (hw : 0 < w) (h0 : 0 ≤ x) (h1 : x < 2 ^ (w - 1)) : toSigned w x = x := by
  have e : (2 : Int) ^ w = 2 * 2 ^ (w - 1) := by
    conv_lhs => rw [show w = (w - 1) + 1 by omega]
    rw [pow_succ]; ring
  unfold toSigned
  rw [Int.emod_eq_of_lt (by omega) (by omega)]; omega

theorem reqOf_eq (w ns : Nat) (hn : ns < 2 ^ 64) (hw : w = 64 ∨ w = 32 ∧ ns < 2 ^ 31 * 1000000000) :
    reqOf w ns = ⟨(ns / 1000000000 : Nat), (ns % 1000000000 : Nat)⟩ := by
  have h1 : toSigned w (ns / 1000000000 : Nat) = (ns / 1000000000 : Nat) := by
    apply toSigned_of
    · omega
    · omega
    · rcases hw with rfl | ⟨rfl, h⟩
      · norm_num; omega
      · norm_num; omega
  have h2 : ((ns : Int) - (ns / 1000000000 : Nat) * 1000000000) % 2 ^ 64 = (ns % 1000000000 : Nat) := by omega
  have h3 : toSigned w (ns % 1000000000 : Nat) = (ns % 1000000000 : Nat) := by
    apply toSigned_of
    · omega
    · omega
    · rcases hw with rfl | ⟨rfl, h⟩
      · norm_num; omega
      · norm_num; omega
  simp only [reqOf, h1, h2, h3]

theorem reqOf_valid (w ns : Nat) (hn : ns < 2 ^ 64) (hw : w = 64 ∨ w = 32 ∧ ns < 2 ^ 31 * 1000000000) :
    (reqOf w ns).valid = true ∧ (reqOf w ns).ns = ns := by
  rw [reqOf_eq w ns hn hw]
  simp only [Timespec.valid, Timespec.ns, Bool.and_eq_true, decide_eq_true_eq]
  omega

theorem sleepLoop_ge (over : Nat) (is : List Interrupt) (req : Timespec) (hv : req.valid = true) (h : Spec.Honest is req) :
    ∃ r, sleepLoop over is req = some r ∧ req.ns ≤ r := by
  induction is generalizing req with
  | nil => exact ⟨_, by rw [sleepLoop, if_pos hv], by omega⟩
  | cons i is ih =>
    obtain ⟨h1, h2, h3⟩ := h
    obtain ⟨r, e, hr⟩ := ih i.rem h1 h3
    refine ⟨i.slept + r, ?_, by omega⟩
    rw [sleepLoop, if_pos hv]
    simp [e]

theorem sleepLoop_exact (over : Nat) (is : List Interrupt) (req : Timespec) (hv : req.valid = true) (h : Spec.Exact is req) :
    sleepLoop over is req = some (req.ns + over) := by
  induction is generalizing req with
  | nil => rw [sleepLoop, if_pos hv]
  | cons i is ih =>
    obtain ⟨h1, h2, h3⟩ := h
    rw [sleepLoop, if_pos hv]
    simp only [ih i.rem h1 h3]
    refine congrArg some ?_
    omega

/-- C111 on POSIX, as far as it holds: for every number of nanoseconds, if `time_t` has 64 bits, or has 32 and the time is shorter than 2^31 seconds,
however often the sleep is interrupted, the system never refuses it, and when `thread_timer_wait` returns at least that time has passed; exactly that
time, and what the last sleep takes longer, if the clock loses nothing. Missing: Windows, and times of 68 years for a `time_t` of 32 bits. -/
theorem c111_posix_partial (w ns over : Nat) (is : List Interrupt) (hn : ns < 2 ^ 64) (hw : w = 64 ∨ w = 32 ∧ ns < 2 ^ 31 * 1000000000) :
    (Spec.Honest is (reqOf w ns) → ∃ r, timerWaitPosix w is over ns = some r ∧ (ns : Int) ≤ r) ∧
    (Spec.Exact is (reqOf w ns) → timerWaitPosix w is over ns = some ((ns : Int) + over)) := by
  obtain ⟨hv, e⟩ := reqOf_valid w ns hn hw
  constructor
  · intro h
    obtain ⟨r, h1, h2⟩ := sleepLoop_ge over is _ hv h
    exact ⟨r, h1, by omega⟩
  · intro h
    rw [timerWaitPosix, sleepLoop_exact over is _ hv h, e]

/-- Two interruptions of a wait of two and a half seconds. -/
example : Spec.Honest [⟨700000000, ⟨1, 800000000⟩⟩, ⟨1700000000, ⟨0, 100000000⟩⟩] (reqOf 64 2500000000) ∧
    timerWaitPosix 64 [⟨700000000, ⟨1, 800000000⟩⟩, ⟨1700000000, ⟨0, 100000000⟩⟩] 50000 2500000000 = some 2500050000 :=
  ⟨⟨by decide, by decide, by decide, by decide, trivial⟩, by decide⟩

/-- C111 on Windows, as far as it holds: up to 99 nanoseconds are missing, never more. -/
theorem c111_windows_partial (now : Int) (ns over : Nat) (hn : ns < 2 ^ 64) :
    (ns : Int) - 99 ≤ timerWaitWindows now over ns ∧ (100 ≤ ns → timerWaitWindows now over ns = ns / 100 * 100 + over) := by
  have e : toSigned 64 (ns / 100 : Nat) = (ns / 100 : Nat) := toSigned_of 64 _ (by omega) (by omega) (by norm_num; omega)
  unfold timerWaitWindows dueTime waitTimer
  rw [e]
  constructor
  · split <;> [skip; split] <;> omega
  · intro h
    rw [if_pos (by omega)]; omega

/-- C111 is false on Windows, where the time is rounded down to a multiple of 100 ns, and for a `time_t` of 32 bits, where from 2^31 seconds on the system
refuses the time, and `rem`, which nothing has written to, is used. -/
theorem c111_false (now : Int) (h : 0 ≤ now) :
    timerWaitWindows now 0 199 < 199 ∧ timerWaitWindows now 0 99 = 0 ∧ timerWaitPosix 32 [] 0 (2 ^ 31 * 1000000000) = none := by
  refine ⟨?_, ?_, by decide⟩
  · have : dueTime 199 = -1 := by decide
    rw [timerWaitWindows, this, waitTimer, if_pos (by omega)]; decide
  · have : dueTime 99 = 0 := by decide
    rw [timerWaitWindows, this, waitTimer, if_neg (by omega), if_neg (by omega)]; rfl

theorem keyOf_of (x : Nat) (h : x < 2 ^ 32) : keyOf x = x := Nat.mod_eq_of_lt h

/-- What connects the state to the calls so far. -/
def Agrees (s : Tls) (h : List (TlsOp × Nat)) : Prop := ∀ t x, x < 2 ^ 32 → (if s.live x then some (s.val t x) else none) = Spec.value t x h

/-- All indices used have 32 bits, as those returned have. -/
def Small (o : TlsOp) : Prop := ∀ x, Spec.index o = some x → x < 2 ^ 32

theorem agrees_step (s s' : Tls) (h : List (TlsOp × Nat)) (o : TlsOp) (r : Nat) (ha : Agrees s h) (ho : o.ok s) (hs : Small o)
    (e : tlsStep s o = some (s', r)) : Agrees s' ((o, r) :: h) := by
  intro t x hx
  have hx' := ha t x hx
  cases o with
  | create got =>
    cases got with
    | none =>
      simp only [tlsStep, tlsCreate, Option.some.injEq, Prod.mk.injEq] at e
      obtain ⟨rfl, rfl⟩ := e
      exact hx'
    | some k =>
      simp only [tlsStep, tlsCreate, Option.some.injEq, Prod.mk.injEq] at e
      obtain ⟨rfl, rfl⟩ := e
      simp only [Spec.value]
      by_cases hk : k = x
      · subst hk; simp
      · have : ¬ x = k := fun e => hk e.symm
        simp only [if_neg hk, if_neg this, hx']
  | destroy y =>
    have hy := keyOf_of y (hs y rfl)
    simp only [tlsStep, tlsDestroy, hy] at e
    split at e
    · simp only [Option.map_some, Option.some.injEq, Prod.mk.injEq] at e
      obtain ⟨rfl, rfl⟩ := e
      simp only [Spec.value]
      by_cases hk : y = x
      · subst hk; simp
      · have : ¬ x = y := fun e => hk e.symm
        simp only [if_neg hk, if_neg this, hx']
    · simp at e
  | set u y v =>
    have hy := keyOf_of y (hs y rfl)
    simp only [tlsStep, tlsSet, hy] at e
    split at e
    · rename_i hl
      simp only [Option.map_some, Option.some.injEq, Prod.mk.injEq] at e
      obtain ⟨rfl, rfl⟩ := e
      simp only [Spec.value]
      by_cases hk : y = x ∧ u = t
      · obtain ⟨rfl, rfl⟩ := hk; simp [hl]
      · have : ¬ (t = u ∧ x = y) := fun e => hk ⟨e.2.symm, e.1.symm⟩
        simp only [if_neg hk, if_neg this, hx']
    · simp at e
  | get u y =>
    simp only [tlsStep, Option.map_eq_some_iff, Prod.mk.injEq] at e
    obtain ⟨_, _, rfl, rfl⟩ := e
    exact hx'

theorem agrees_run (os : List TlsOp) (s s' : Tls) (h : List (TlsOp × Nat)) (rs : List Nat) (ha : Agrees s h) (hk : tlsOk s os)
    (hs : ∀ o ∈ os, Small o) (e : tlsRun s os = some (s', rs)) : Agrees s' ((os.zip rs).reverse ++ h) := by
  induction os generalizing s h rs with
  | nil =>
    simp only [tlsRun, Option.some.injEq, Prod.mk.injEq] at e
    obtain ⟨rfl, rfl⟩ := e
    exact ha
  | cons o os ih =>
    rw [tlsRun] at e
    cases e1 : tlsStep s o with
    | none => simp [e1] at e
    | some p =>
      obtain ⟨s1, r⟩ := p
      cases e2 : tlsRun s1 os with
      | none => simp [e1, e2] at e
      | some q =>
        obtain ⟨s2, rs2⟩ := q
        simp only [e1, e2, Option.bind_eq_bind, Option.bind_some, Option.pure_def, Option.some.injEq, Prod.mk.injEq] at e
        obtain ⟨rfl, rfl⟩ := e
        have h1 := agrees_step s s1 h o r ha hk.1 (hs o (by simp)) e1
        have h2 := ih s1 ((o, r) :: h) rs2 h1 (hk.2 s1 r e1) (fun o ho => hs o (by simp [ho])) e2
        simpa using h2

/-- C112: after any history of calls by any threads, in any order, an index that has been created and not destroyed gives every thread the value that thread
has last stored there since, null if none, whatever other threads and other indices have been used for; a call with any other index is undefined, and
no other call is. -/
theorem c112_values (os : List TlsOp) (s : Tls) (rs : List Nat) (hk : tlsOk Tls.start os) (hs : ∀ o ∈ os, Small o)
    (e : tlsRun Tls.start os = some (s, rs)) :
    (∀ t x v, x < 2 ^ 32 → Spec.value t x (os.zip rs).reverse = some v → tlsGet s t x = some v) ∧
    (∀ o, Small o → (tlsStep s o = none ↔ ∃ x, Spec.index o = some x ∧ Spec.value 0 x (os.zip rs).reverse = none)) := by
  have ha := agrees_run os Tls.start s [] rs (fun t x _ => rfl) hk hs e
  rw [List.append_nil] at ha
  constructor
  · intro t x v hx hv
    rw [tlsGet, keyOf_of x hx, ha t x hx, hv]
  · intro o ho
    cases o with
    | create got => simp [tlsStep, Spec.index]
    | destroy x =>
      have hx := ho x rfl
      simp only [tlsStep, tlsDestroy, keyOf_of x hx, Spec.index, Option.some.injEq, exists_eq_left', ← ha 0 x hx]
      split <;> simp
    | set u x v =>
      have hx := ho x rfl
      simp only [tlsStep, tlsSet, keyOf_of x hx, Spec.index, Option.some.injEq, exists_eq_left', ← ha 0 x hx]
      split <;> simp
    | get u x =>
      have hx := ho x rfl
      simp only [tlsStep, tlsGet, keyOf_of x hx, Spec.index, Option.some.injEq, exists_eq_left', ← ha 0 x hx]
      split <;> simp

/-- Two threads, two indices, one destroyed and handed out again. -/
example : ∃ s, tlsRun Tls.start [.create (some 3), .create (some 4), .set 1 3 70, .set 2 3 80, .set 1 4 90, .get 1 3, .get 2 3, .get 2 4, .destroy 3,
    .create (some 3), .get 1 3, .get 1 4] = some (s, [3, 4, 0, 0, 0, 70, 80, 0, 0, 3, 0, 90]) := ⟨_, rfl⟩

/-- C112, creation, as far as it holds: a new index is none of those in use, and null if the system has no more keys. Missing: that null means failure. -/
theorem c112_create_partial (os : List TlsOp) (s : Tls) (rs : List Nat) (got : Option Nat) (hk : tlsOk Tls.start os) (hs : ∀ o ∈ os, Small o)
    (e : tlsRun Tls.start os = some (s, rs)) (hg : (TlsOp.create got).ok s) :
    (∀ k, got = some k → ∀ t, Spec.value t (tlsCreate s got).1 (os.zip rs).reverse = none) ∧ (got = none → (tlsCreate s got).1 = 0) := by
  have ha := agrees_run os Tls.start s [] rs (fun t x _ => rfl) hk hs e
  rw [List.append_nil] at ha
  constructor
  · rintro k rfl t
    have := ha t k hg.1
    rw [hg.2] at this
    exact this.symm
  · rintro rfl; rfl

/-- C112, creation, is false: the first key of a system that counts from 0 is returned as the null pointer, which is also what failure is reported as; it
is an index that works. -/
theorem c112_null_false : (tlsCreate Tls.start (some 0)).1 = (tlsCreate Tls.start none).1 ∧ (TlsOp.create (some 0)).ok Tls.start ∧
    tlsGet (tlsCreate Tls.start (some 0)).2 1 0 = some 0 ∧ tlsGet (tlsCreate Tls.start none).2 1 0 = none := ⟨rfl, ⟨by decide, rfl⟩, rfl, rfl⟩

end Nanostl.Thread
