import Verif.Vector.World
import Verif.Vector.Cost

/-!
Property theorems for `nanostl::vector` (C01-C10). `nanostl::valarray` (include/nanovalarray.h:60-220) has the same
members and the same method bodies (resize 84-115, clear 124, erase 151-159, assign 163-168, swap 171-175,
`__push_back` 187-190, recommended_size 202-206, operator= 213-220), so the model covers it too.
-/

namespace Nanostl.Vector

open Spec (Abs upd Pre Post Exc Run)

variable {α : Type}

/-- Every operation of the program meets its C++ precondition in the state in which it is executed. -/
def Legal : World α → List (Cmd α) → Prop
  | _, [] => True
  | w, c :: cs => Pre (abs w) c ∧ ∀ w' t, step w c = some (w', t) → Legal w' cs

theorem Legal.cons {w w' : World α} {c : Cmd α} {cs : List (Cmd α)} {t : Bool} (h : Pre (abs w) c)
    (hs : step w c = some (w', t)) (hl : Legal w' cs) : Legal w (c :: cs) :=
  ⟨h, fun w2 t2 h2 => by rw [hs] at h2; cases h2; exact hl⟩

/-- Executable check of `Pre`, used to exhibit concrete legal programs. -/
def preB (A : Abs α) : Cmd α → Bool
  | .new i => (A i).isNone
  | .copy i j => (A i).isNone && (A j).isSome
  | .del i | .push i _ | .clear i | .assignVals i _ => (A i).isSome
  | .pushElem i j k => i != j && (A i).isSome && (match A j with | some l => decide (k < l.length) | none => false)
  | .pop i => (match A i with | some l => !l.isEmpty | none => false)
  | .write i k _ | .erase i k => (match A i with | some l => decide (k < l.length) | none => false)
  | .resize i n => (A i).isSome && decide (1 ≤ n) && decide (n < 2 ^ 64)
  | .assignFrom i j lo hi => (A i).isSome && decide (lo ≤ hi) && (match A j with | some l => decide (hi ≤ l.length) | none => false)
  | .opAssign i j | .swap i j => (A i).isSome && (A j).isSome

def legalB : World α → List (Cmd α) → Bool
  | _, [] => true
  | w, c :: cs => preB (abs w) c && (match step w c with | some (w', _) => legalB w' cs | none => true)

theorem pre_of_preB {A : Abs α} {c : Cmd α} (h : preB A c = true) : Pre A c := by
  cases c <;> simp [preB, Option.isSome_iff_exists] at h <;> simp only [Pre]
  case new => exact h
  case copy => exact h
  case del => exact h
  case push => exact h
  case clear => exact h
  case assignVals => exact h
  case opAssign => exact h
  case swap => exact h
  case resize => exact ⟨h.1.1, h.1.2, h.2⟩
  case pushElem => split at h <;> simp at h; rename_i l hl; exact ⟨h.1.1, h.1.2, l, hl, h.2⟩
  case pop => split at h <;> simp at h; rename_i l hl; exact ⟨l, hl, h⟩
  case write => split at h <;> simp at h; rename_i l hl; exact ⟨l, hl, h⟩
  case erase => split at h <;> simp at h; rename_i l hl; exact ⟨l, hl, h⟩
  case assignFrom => split at h <;> simp at h; rename_i l hl; exact ⟨h.1.1, l, hl, h.1.2, h.2⟩

theorem legal_of_check : ∀ (cs : List (Cmd α)) (w : World α), legalB w cs = true → Legal w cs := by
  intro cs
  induction cs with
  | nil => intro w _; trivial
  | cons c cs ih =>
    intro w h
    simp only [legalB, Bool.and_eq_true] at h
    exact ⟨pre_of_preB h.1, fun w' t hs => ih w' (by simpa [hs] using h.2)⟩

theorem inv_start (fails : Nat → Nat → Bool) (fresh : Option α) : Inv (World.start fails fresh) := by
  constructor <;> intros <;> simp_all [World.start, Bnd]

/-- Some copy construction in the history threw. -/
def CopyThrew : List (Cmd α) → List Bool → Prop
  | c :: cs, t :: ts => ((∃ i j, c = .copy i j) ∧ t = true) ∨ CopyThrew cs ts
  | _, _ => False

theorem run_ok : ∀ (cs : List (Cmd α)) (w : World α), Inv w → Legal w cs →
    ∃ w' ts, run w cs = some (w', ts) ∧ Inv w' ∧ Run (abs w) cs ts (abs w') ∧
      (¬ CopyThrew cs ts → w'.leaked = w.leaked) := by
  intro cs
  induction cs with
  | nil => intro w I _; exact ⟨w, [], rfl, I, .nil _, fun _ => rfl⟩
  | cons c cs ih =>
    intro w I hl
    obtain ⟨hp, hn⟩ := hl
    obtain ⟨w1, t, hs, I1, hok, hex⟩ := step_ok I c hp
    obtain ⟨w2, ts, hr, I2, hrun, hlk⟩ := ih w1 I1 (hn w1 t hs)
    refine ⟨w2, t :: ts, by simp only [run, hs, hr], I2, ?_, ?_⟩
    · cases t with
      | false => exact .ok (hok rfl).1 hrun
      | true => exact .exc (hex rfl).1 hrun
    · intro hc
      have h1 : ¬ CopyThrew cs ts := fun h => hc (.inr h)
      rw [hlk h1]
      cases t with
      | false => exact (hok rfl).2
      | true =>
        rcases (hex rfl).2 with h | ⟨i, j, h⟩
        · exact h
        · exact absurd (.inl ⟨⟨i, j, h⟩, rfl⟩) hc

/-! ### What the observers return -/

/-- `size()`, `operator[]`/`at` and iteration give the abstract sequence. -/
theorem observe {w : World α} (I : Inv w) {i : Nat} {l : List (Option α)} (hl : abs w i = some l) :
    ∃ v, w.vec i = some v ∧ v.size = l.length ∧
      (∀ (k : Nat) a, l[k]? = some (some a) → read k (w.heap, v) = .ok (w.heap, v) a) ∧
      (wholeRange v : List (Ref α)).length = l.length ∧
      (∀ (k : Nat) r, (wholeRange v : List (Ref α))[k]? = some r → ∃ c, l[k]? = some c ∧ deref r (w.heap, v) = .ok (w.heap, v) c) := by
  obtain ⟨v, hv, hvl⟩ := abs_some hl
  have wv := I.wf i v hv
  have hlen := view_length wv
  rw [hvl] at hlen
  refine ⟨v, hv, hlen.symm, ?_, ?_, ?_⟩
  · intro k a hk
    have hkl : k < l.length := by
      rcases Nat.lt_or_ge k l.length with h | h
      · exact h
      · simp [List.getElem?_eq_none h] at hk
    rcases wv with ⟨e1, e2, e3⟩ | ⟨p, b, e1, e2, e3, e4, e5, e6⟩
    · omega
    · have hkb : k < b.length := by omega
      have hbk : b.getD k none = some a := by
        have h2 : (view w.heap v)[k]? = some (some a) := by rw [hvl]; exact hk
        simp only [view, e1, e2, Option.getD_some, List.getElem?_take] at h2
        rw [if_pos (by omega)] at h2
        simp [List.getD, h2]
      simp only [read]
      rw [Act.bind_ok (show getThis (w.heap, v) = .ok (w.heap, v) v from rfl), e1, Act.bind_ok (load_ok e2 hkb)]
      simp only [hbk]; rfl
  · rcases wv with ⟨e1, e2, e3⟩ | ⟨p, b, e1, e2, e3, e4, e5, e6⟩
    · simp [wholeRange, subRange, e1]; omega
    · simp [wholeRange, subRange, e1, range]; omega
  · intro k r hr
    rcases wv with ⟨e1, e2, e3⟩ | ⟨p, b, e1, e2, e3, e4, e5, e6⟩
    · simp [wholeRange, subRange, e1] at hr
    · have hk : k < v.size := by
        rcases Nat.lt_or_ge k v.size with h | h
        · exact h
        · rw [List.getElem?_eq_none (by simp [wholeRange, subRange, e1, range]; omega)] at hr; cases hr
      have hr' : r = .cell p k := by
        simp [wholeRange, subRange, e1, range] at hr
        rw [List.getElem?_eq_getElem (by simpa using hk)] at hr
        simp at hr
        exact hr.symm
      refine ⟨b.getD k none, ?_, ?_⟩
      · rw [← hvl]
        simp [view, e1, e2, hk, List.getElem?_eq_getElem (show k < b.length by omega)]
      · subst hr'
        simp only [deref]
        exact load_ok e2 (by omega)

/-- Names an operation may change. -/
def targets : Cmd α → List Nat
  | .new i | .copy i _ | .del i | .push i _ | .pushElem i _ _ | .pop i | .write i _ _ | .erase i _ | .resize i _
  | .clear i | .assignVals i _ | .assignFrom i _ _ _ | .opAssign i _ => [i]
  | .swap i j => [i, j]

theorem post_other {A A' : Abs α} {c : Cmd α} {k : Nat} (hk : k ∉ targets c) (h : Post A c A' ∨ Exc A c A') : A' k = A k := by
  cases c <;> simp [targets] at hk <;> rcases h with h | h <;> simp only [Post, Exc] at h
  all_goals first
    | (subst h; simp [upd, hk])
    | (obtain ⟨_, _, rfl⟩ := h; simp [upd, hk])
    | (obtain ⟨_, _, _, rfl⟩ := h; simp [upd, hk])
    | (obtain ⟨_, _, _, _, rfl⟩ := h; simp [upd, hk])
    | (obtain ⟨_, _, _, _, _, rfl⟩ := h; simp [upd, hk])
    | (obtain ⟨_, _, _, _, _, _, rfl⟩ := h; simp [upd, hk])

theorem run_other {A A' : Abs α} {cs : List (Cmd α)} {ts : List Bool} {k : Nat} (h : Run A cs ts A')
    (hk : ∀ c ∈ cs, k ∉ targets c) : A' k = A k := by
  induction h with
  | nil => rfl
  | ok hp _ ih =>
    rw [ih (fun c hc => hk c (List.mem_cons_of_mem _ hc)), post_other (hk _ List.mem_cons_self) (.inl hp)]
  | exc hp _ ih =>
    rw [ih (fun c hc => hk c (List.mem_cons_of_mem _ hc)), post_other (hk _ List.mem_cons_self) (.inr hp)]

/-! ### C01 -/

/-- C01. Every legal program over any number of vectors runs without undefined behaviour, its effect is the one of the
same operations on mathematical sequences, and `size()`, `operator[]` and iteration show exactly these sequences. -/
theorem c01_vector_is_sequence (fails : Nat → Nat → Bool) (fresh : Option α) (cs : List (Cmd α))
    (hl : Legal (World.start fails fresh) cs) :
    ∃ w ts A, run (World.start fails fresh) cs = some (w, ts) ∧ Run (fun _ => none) cs ts A ∧
      (∀ i, A i = none ↔ w.vec i = none) ∧
      ∀ i l, A i = some l → ∃ v, w.vec i = some v ∧ v.size = l.length ∧
        (∀ (k : Nat) a, l[k]? = some (some a) → read k (w.heap, v) = .ok (w.heap, v) a) ∧
        (wholeRange v : List (Ref α)).length = l.length ∧
        (∀ (k : Nat) r, (wholeRange v : List (Ref α))[k]? = some r →
          ∃ c, l[k]? = some c ∧ deref r (w.heap, v) = .ok (w.heap, v) c) := by
  obtain ⟨w, ts, h1, I, h2, _⟩ := run_ok cs _ (inv_start fails fresh) hl
  refine ⟨w, ts, abs w, h1, h2, ?_, fun i l h => observe I h⟩
  intro i; simp [abs]

/-- A program that meets the hypothesis: reallocation, copy, erase, own-range assign, destruction. -/
def demo : List (Cmd Nat) :=
  [.new 0, .push 0 5, .push 0 6, .push 0 7, .copy 1 0, .erase 0 1, .resize 1 5, .assignFrom 1 1 1 3, .pushElem 0 1 0,
   .swap 0 1, .pop 1, .del 0, .del 1]

example : Legal (World.start (α := Nat) (fun _ _ => false) none) demo := by
  exact legal_of_check _ _ (by decide +kernel)

/-! ### C02 -/

/-- C02 (part). No legal program has undefined behaviour (out-of-bounds, use after free, double free); in the state
reached, two vectors never share a block; every live block belongs to a live vector, unless a copy constructor threw;
so when all vectors are gone nothing is left.
Missing for the full claim: histories in which a copy constructor throws, see `c02_copy_throw_leaks_false`. -/
theorem c02_vector_ownership_partial (fails : Nat → Nat → Bool) (fresh : Option α) (cs : List (Cmd α))
    (hl : Legal (World.start fails fresh) cs) :
    ∃ w ts, run (World.start fails fresh) cs = some (w, ts) ∧
      (∀ i j u v p, w.vec i = some u → w.vec j = some v → u.elements = some p → v.elements = some p → i = j) ∧
      (∀ i v p, w.vec i = some v → v.elements = some p → ∃ b, w.heap.mem p = some b ∧ b.length = v.capacity) ∧
      (¬ CopyThrew cs ts → (∀ p, w.heap.mem p ≠ none → ∃ i v, w.vec i = some v ∧ v.elements = some p) ∧
        ((∀ i, w.vec i = none) → ∀ p, w.heap.mem p = none)) := by
  obtain ⟨w, ts, h1, I, _, h3⟩ := run_ok cs _ (inv_start fails fresh) hl
  refine ⟨w, ts, h1, I.inj, ?_, ?_⟩
  · intro i v p hv hp
    rcases I.wf i v hv with ⟨e1, _⟩ | ⟨q, b, e1, e2, e3, _⟩
    · simp [hp] at e1
    · rw [hp] at e1; cases e1; exact ⟨b, e2, e3⟩
  · intro hc
    have hlk : w.leaked = [] := h3 hc
    have hown : ∀ p, w.heap.mem p ≠ none → ∃ i v, w.vec i = some v ∧ v.elements = some p := by
      intro p hp
      rcases I.owned p hp with h | h
      · exact h
      · rw [hlk] at h; cases h
    refine ⟨hown, fun hnone p => ?_⟩
    rcases hm : w.heap.mem p with _ | b
    · rfl
    · obtain ⟨i, v, hv, _⟩ := hown p (by simp [hm])
      rw [hnone i] at hv; cases hv

/-- C02 fails: when the second allocation of a copy construction throws, the block of the first one is lost. -/
theorem c02_copy_throw_leaks_false :
    ∃ (fails : Nat → Nat → Bool) (cs : List (Cmd Nat)), Legal (World.start fails none) cs ∧
      ∃ w ts, run (World.start fails none) cs = some (w, ts) ∧ (∀ i, w.vec i = none) ∧ ∃ p, w.heap.mem p ≠ none := by
  let fails : Nat → Nat → Bool := fun k _ => k == 3
  let cs : List (Cmd Nat) := [.new 0, .push 0 1, .push 0 2, .copy 1 0, .del 0]
  have hl : Legal (World.start fails none) cs := legal_of_check _ _ (by decide +kernel)
  obtain ⟨w, ts, hr, _, hR, _⟩ := run_ok cs _ (inv_start fails none) hl
  have h0 : (run (World.start fails none) cs).map (fun x => (x.1.vec 0, x.1.vec 1, (x.1.heap.mem 2).isSome)) =
      some (none, none, true) := by decide +kernel
  rw [hr] at h0
  simp only [Option.map_some, Option.some.injEq, Prod.mk.injEq] at h0
  refine ⟨fails, cs, hl, w, ts, hr, ?_, 2, ?_⟩
  · intro i
    by_cases hi : i = 0
    · rw [hi]; exact h0.1
    · by_cases hi1 : i = 1
      · rw [hi1]; exact h0.2.1
      · have := run_other (k := i) hR (by
          intro c hc
          simp only [cs, List.mem_cons, List.not_mem_nil, or_false] at hc
          rcases hc with rfl | rfl | rfl | rfl | rfl <;> simp [targets, hi, hi1])
        exact abs_none (this.trans rfl)
  · have := h0.2.2
    intro hn
    simp [hn] at this

/-! ### C03 -/

/-- C03, first part: `size() <= capacity()` for every live vector after every legal program. -/
theorem c03_size_le_capacity (fails : Nat → Nat → Bool) (fresh : Option α) (cs : List (Cmd α))
    (hl : Legal (World.start fails fresh) cs) :
    ∃ w ts, run (World.start fails fresh) cs = some (w, ts) ∧ ∀ i v, w.vec i = some v → v.size ≤ v.capacity := by
  obtain ⟨w, ts, h1, I, _, _⟩ := run_ok cs _ (inv_start fails fresh) hl
  exact ⟨w, ts, h1, fun i v hv => wf_size_le (I.wf i v hv)⟩

/-- A method keeps the capacity discipline. -/
theorem onVec_cap {β : Type} {w w' : World α} {i j : Nat} {m : Vec → Act (St α) β} {t : Bool} {v v' : Vec}
    (hs : onVec w i m = some (w', t)) (hv : w.vec j = some v) (hv' : w'.vec j = some v')
    (hm : ∀ u s b, w.vec i = some u → (m u (w.heap, u) = .ok s b ∨ m u (w.heap, u) = .exc s) → CapRel u s.2)
    (hm' : ∀ u s, w.vec i = some u → m u (w.heap, u) = .exc s → CapRel u s.2) : CapRel v v' := by
  simp only [onVec] at hs
  cases hi : w.vec i with
  | none => simp [hi] at hs
  | some u =>
    simp only [hi] at hs
    by_cases hij : j = i
    · subst hij
      rw [hv] at hi; cases hi
      cases ho : m v (w.heap, v) with
      | ub => simp [ho] at hs
      | ok s b =>
        obtain ⟨h2, v2⟩ := s
        simp only [ho] at hs; cases hs
        simp [setVec] at hv'; subst hv'
        exact hm v _ b hv (.inl ho)
      | exc s =>
        obtain ⟨h2, v2⟩ := s
        simp only [ho] at hs; cases hs
        simp [setVec] at hv'; subst hv'
        exact hm' v _ hv ho
    · have : v' = v := by
        cases ho : m u (w.heap, u) with
        | ub => simp [ho] at hs
        | ok s b =>
          obtain ⟨h2, v2⟩ := s
          simp only [ho] at hs; cases hs
          simp [setVec, hij, hv] at hv'; exact hv'.symm
        | exc s =>
          obtain ⟨h2, v2⟩ := s
          simp only [ho] at hs; cases hs
          simp [setVec, hij, hv] at hv'; exact hv'.symm
      rw [this]; exact CapRel.refl v

theorem AssignOut.cap {h : Heap α} {v : Vec} {pre cs : List (Option α)} {o : Out (St α) Unit} (a : AssignOut h v pre cs o) :
    ∀ s, (o = .ok s () ∨ o = .exc s) → CapRel v s.2 := by
  intro s hs
  cases a with
  | ok h' v' _ _ _ hc => rcases hs with hs | hs <;> cases hs; exact hc
  | exc h' v' n _ _ _ _ hc => rcases hs with hs | hs <;> cases hs; exact hc

theorem popBack_any (h : Heap α) (v : Vec) : ∃ n, popBack (h, v) = .ok (h, { v with size := n }) () := by
  refine ⟨(v.size + word - 1) % word, ?_⟩
  simp only [popBack, Act.bind_apply, getThis, setThis]

theorem step_cap {w w' : World α} {c : Cmd α} {t : Bool} {j : Nat} {v v' : Vec} (I : Inv w) (hp : Pre (abs w) c)
    (hs : step w c = some (w', t)) (hv : w.vec j = some v) (hv' : w'.vec j = some v') (hsw : ∀ i k, c ≠ .swap i k) :
    CapRel v v' := by
  have same : ∀ u : Vec, some u = some v → some u = some v' → CapRel v v' := by
    intro u h1 h2; cases h1; cases h2; exact CapRel.refl _
  cases c with
  | swap i k => exact absurd rfl (hsw i k)
  | new i =>
    have hi := abs_none hp
    simp only [step, hi] at hs; cases hs
    by_cases hij : j = i
    · subst hij; simp [hi] at hv
    · simp [setVec, hij, hv] at hv'; rw [hv']; exact CapRel.refl _
  | copy i k =>
    obtain ⟨hi, l, hl⟩ := hp
    have hi := abs_none hi
    obtain ⟨u, hu, _⟩ := abs_some hl
    have hij : j ≠ i := by rintro rfl; simp [hi] at hv
    simp only [step, hi, hu] at hs
    cases ho : copyCtor u (w.heap, init) with
    | ub => simp [ho] at hs
    | ok s b =>
      obtain ⟨h2, v2⟩ := s
      simp only [ho] at hs; cases hs
      simp [setVec, hij, hv] at hv'; rw [hv']; exact CapRel.refl _
    | exc s =>
      obtain ⟨h2, v2⟩ := s
      simp only [ho] at hs; cases hs
      exact same v' (by rw [← hv', ← hv]) rfl
  | del i =>
    obtain ⟨l, hl⟩ := hp
    obtain ⟨u, hu, _⟩ := abs_some hl
    simp only [step, hu, dtor_ok (I.wf i u hu)] at hs; cases hs
    by_cases hij : j = i
    · simp [setVec, hij] at hv'
    · simp [setVec, hij, hv] at hv'; rw [hv']; exact CapRel.refl _
  | push i a =>
    simp only [step] at hs
    refine onVec_cap hs hv hv' (fun u s b hu ho => ?_) (fun u s hu ho => ?_)
    · exact ((pushBack_spec (r := .ext a) (c := some a) (I.wf i u hu) I.bnd rfl).cap (I.wf i u hu) s ho).1
    · exact ((pushBack_spec (r := .ext a) (c := some a) (I.wf i u hu) I.bnd rfl).cap (I.wf i u hu) s (.inr ho)).1
  | pushElem i k n =>
    obtain ⟨hik, ⟨l, hl⟩, m, hm, hn⟩ := hp
    obtain ⟨x, hx, hxl⟩ := abs_some hl
    obtain ⟨y, hy, hym⟩ := abs_some hm
    have wy := I.wf k y hy
    have hlen := view_length wy
    rcases wy with ⟨e1, e2, e3⟩ | ⟨p, b, e1, e2, e3, e4, e5, e6⟩
    · rw [hym, e3] at hlen; omega
    · have hne : some p ≠ x.elements := fun c => hik (I.inj i k x y p hx hy c.symm e1)
      have hkb : n < b.length := by rw [hym] at hlen; omega
      simp only [step, hy, e1] at hs
      refine onVec_cap hs hv hv' (fun u s b' hu ho => ?_) (fun u s hu ho => ?_)
      · rw [hx] at hu; cases hu
        exact ((pushBack_spec (r := .cell p n) (c := b.getD n none) (I.wf i x hx) I.bnd ⟨b, e2, hkb, rfl, .inl hne⟩).cap
          (I.wf i x hx) s ho).1
      · rw [hx] at hu; cases hu
        exact ((pushBack_spec (r := .cell p n) (c := b.getD n none) (I.wf i x hx) I.bnd ⟨b, e2, hkb, rfl, .inl hne⟩).cap
          (I.wf i x hx) s (.inr ho)).1
  | pop i =>
    simp only [step] at hs
    refine onVec_cap hs hv hv' (fun u s b hu ho => ?_) (fun u s hu ho => ?_)
    · obtain ⟨n, hn⟩ := popBack_any w.heap u
      rw [hn] at ho
      rcases ho with ho | ho <;> cases ho; exact ⟨Nat.le_refl _, fun _ => rfl⟩
    · obtain ⟨n, hn⟩ := popBack_any w.heap u
      rw [hn] at ho; cases ho
  | write i k a =>
    obtain ⟨l, hl, hk⟩ := hp
    obtain ⟨x, hx, hxl⟩ := abs_some hl
    have hlen := view_length (I.wf i x hx)
    obtain ⟨h', g1, _⟩ := write_ok a (I.wf i x hx) I.bnd (k := k) (by rw [hxl] at hlen; omega)
    simp only [step] at hs
    refine onVec_cap hs hv hv' (fun u s b hu ho => ?_) (fun u s hu ho => ?_)
    · rw [hx] at hu; cases hu; rw [g1] at ho
      rcases ho with ho | ho <;> cases ho; exact CapRel.refl _
    · rw [hx] at hu; cases hu; rw [g1] at ho; cases ho
  | erase i k =>
    obtain ⟨l, hl, hk⟩ := hp
    obtain ⟨x, hx, hxl⟩ := abs_some hl
    have hlen := view_length (I.wf i x hx)
    obtain ⟨h', g1, _⟩ := erase_ok (I.wf i x hx) I.bnd (k := k) (by rw [hxl] at hlen; omega)
    simp only [step] at hs
    refine onVec_cap hs hv hv' (fun u s b hu ho => ?_) (fun u s hu ho => ?_)
    · rw [hx] at hu; cases hu; rw [g1] at ho
      rcases ho with ho | ho <;> cases ho; exact ⟨Nat.le_refl _, fun _ => rfl⟩
    · rw [hx] at hu; cases hu; rw [g1] at ho; cases ho
  | resize i n =>
    have key : ∀ u s, w.vec i = some u → (resize n (w.heap, u) = .ok s () ∨ resize n (w.heap, u) = .exc s) → CapRel u s.2 := by
      intro u s hu ho
      have hr := resize_spec (I.wf i u hu) I.bnd hp.2.1
      generalize resize n (w.heap, u) = o at hr ho
      cases hr with
      | ok h' v2 f w2 fr hsz e hc hk =>
        rcases ho with ho | ho <;> cases ho
        exact ⟨hc, fun hle => (hk (by simp only at hle; omega)).1⟩
      | exc h' _ _ => rcases ho with ho | ho <;> cases ho; exact CapRel.refl _
    exact onVec_cap hs hv hv' (fun u s b hu ho => key u s hu ho) (fun u s hu ho => key u s hu (.inr ho))
  | clear i =>
    simp only [step] at hs
    refine onVec_cap hs hv hv' (fun u s b hu ho => ?_) (fun u s hu ho => ?_)
    · rw [clear_eq] at ho
      rcases ho with ho | ho <;> cases ho; exact ⟨Nat.le_refl _, fun _ => rfl⟩
    · rw [clear_eq] at ho; cases ho
  | assignVals i xs =>
    simp only [step] at hs
    refine onVec_cap hs hv hv' (fun u s b hu ho => ?_) (fun u s hu ho => ?_)
    · exact (assign_spec (I.wf i u hu) I.bnd (stableL_ext w.heap u xs)).cap s ho
    · exact (assign_spec (I.wf i u hu) I.bnd (stableL_ext w.heap u xs)).cap s (.inr ho)
  | assignFrom i k lo hi =>
    obtain ⟨⟨l, hl⟩, m, hm, h1, h2⟩ := hp
    obtain ⟨x, hx, hxl⟩ := abs_some hl
    obtain ⟨y, hy, hym⟩ := abs_some hm
    simp only [step, hy] at hs
    have key : ∀ u s, w.vec i = some u →
        (assign (subRange y lo hi) (w.heap, u) = .ok s () ∨ assign (subRange y lo hi) (w.heap, u) = .exc s) → CapRel u s.2 := by
      intro u s hu ho
      rw [hx] at hu; cases hu
      by_cases hik : i = k
      · subst hik
        rw [hx] at hy; cases hy
        have hlen := view_length (I.wf i x hx)
        obtain ⟨h', v2, f1, _, _, _, f5, f6⟩ := assign_self (I.wf i x hx) I.bnd h1 (by rw [hym] at hlen; omega)
        rw [f1] at ho
        rcases ho with ho | ho <;> cases ho
        exact ⟨by simp only; omega, fun _ => f5⟩
      · exact (assign_spec (I.wf i x hx) I.bnd
          (stable_other (lo := lo) (hi := hi) I hik hx hy h1 (by rw [hym]; exact h2))).cap s ho
    exact onVec_cap hs hv hv' (fun u s b hu ho => key u s hu ho) (fun u s hu ho => key u s hu (.inr ho))
  | opAssign i k =>
    obtain ⟨⟨l, hl⟩, m, hm⟩ := hp
    obtain ⟨x, hx, hxl⟩ := abs_some hl
    obtain ⟨y, hy, hym⟩ := abs_some hm
    simp only [step, hy] at hs
    by_cases hik : i = k
    · simp only [hik, if_true] at hs
      refine onVec_cap hs hv hv' (fun u s b hu ho => ?_) (fun u s hu ho => ?_)
      · rw [Act.pure_apply] at ho
        rcases ho with ho | ho <;> cases ho; exact CapRel.refl _
      · rw [Act.pure_apply] at ho; cases ho
    · simp only [hik, if_false] at hs
      have key : ∀ u s, w.vec i = some u →
          (assign (wholeRange y) (w.heap, u) = .ok s () ∨ assign (wholeRange y) (w.heap, u) = .exc s) → CapRel u s.2 := by
        intro u s hu ho
        rw [hx] at hu; cases hu
        exact (assign_spec (I.wf i x hx) I.bnd (stable_other (lo := 0) (hi := y.size) I hik hx hy (Nat.zero_le _)
          (by rw [view_length (I.wf k y hy)]; exact Nat.le_refl _))).cap s ho
      exact onVec_cap hs hv hv' (fun u s b hu ho => key u s hu ho) (fun u s hu ho => key u s hu (.inr ho))

/-- C03, second part: in any state reached by a legal program, any further legal operation other than `swap` keeps or
raises the capacity of every surviving vector, and keeps `data()` of each vector whose new size fits the old capacity. -/
theorem c03_capacity_and_address (fails : Nat → Nat → Bool) (fresh : Option α) (cs : List (Cmd α)) (c : Cmd α)
    (hl : Legal (World.start fails fresh) (cs ++ [c])) (hsw : ∀ i k, c ≠ .swap i k) :
    ∃ w ts w' t, run (World.start fails fresh) cs = some (w, ts) ∧ step w c = some (w', t) ∧
      ∀ i v v', w.vec i = some v → w'.vec i = some v' →
        v.capacity ≤ v'.capacity ∧ (v'.size ≤ v.capacity → v'.elements = v.elements) := by
  have split : ∀ (cs : List (Cmd α)) (w : World α), Legal w (cs ++ [c]) → Legal w cs ∧
      ∀ w' ts, run w cs = some (w', ts) → Pre (abs w') c := by
    intro cs
    induction cs with
    | nil =>
      intro w h
      refine ⟨trivial, ?_⟩
      intro w' ts hr
      cases hr
      exact h.1
    | cons d cs ih =>
      intro w h
      refine ⟨⟨h.1, fun w' t hs => (ih w' (h.2 w' t hs)).1⟩, ?_⟩
      intro w' ts hr
      simp only [run] at hr
      cases hs : step w d with
      | none => simp [hs] at hr
      | some q =>
        obtain ⟨w1, t⟩ := q
        simp only [hs] at hr
        cases hr1 : run w1 cs with
        | none => simp [hr1] at hr
        | some q =>
          obtain ⟨w2, ts2⟩ := q
          simp only [hr1] at hr
          cases hr
          exact (ih w1 (h.2 w1 t hs)).2 _ _ hr1
  obtain ⟨h1, h2⟩ := split cs _ hl
  obtain ⟨w, ts, hr, I, _, _⟩ := run_ok cs _ (inv_start fails fresh) h1
  have hp := h2 w ts hr
  obtain ⟨w', t, hs, _⟩ := step_ok I c hp
  exact ⟨w, ts, w', t, hr, hs, fun i v v' hv hv' => step_cap I hp hs hv hv' hsw⟩

/-! ### C04 -/

/-- C04. `n ≥ 1` `push_back`s on a fresh vector that all succeed make fewer than `2n` element copies while
reallocating, and at most `log2 n + 2` allocations. -/
theorem c04_push_back_amortised (h : Heap α) (hb : ∀ q, h.mem q ≠ none → q < h.next) (l : List α) (hne : l ≠ [])
    (h' : Heap α) (v' : Vec) (copies : Nat) (hrun : pushAllC l ((h, init), 0) = .ok ((h', v'), copies) ()) :
    v'.size = l.length ∧ copies < 2 * l.length ∧ h'.calls ≤ h.calls + Nat.log2 l.length + 2 := by
  have b0 : Built 0 h.calls h init 0 := ⟨.inl ⟨rfl, rfl, rfl⟩, hb, rfl, .inl ⟨rfl, rfl, rfl, rfl⟩⟩
  have hpos : 0 < l.length := List.length_pos_iff.mpr hne
  rcases built_run l 0 0 h.calls h init b0 with ⟨s, hs⟩ | ⟨h2, v2, c2, ho, _, _, hsz, hinv⟩
  · rw [hs] at hrun; cases hrun
  · rw [ho] at hrun; cases hrun
    rw [Nat.zero_add] at hsz hinv
    rcases hinv with ⟨h1, _⟩ | ⟨j, h1, h2, h3, h4⟩
    · omega
    · refine ⟨hsz, by omega, ?_⟩
      have : j ≤ Nat.log2 l.length + 1 := by
        cases j with
        | zero => omega
        | succ j =>
          have : 2 ^ j ≤ l.length := by rw [Nat.pow_succ] at h2; omega
          have := (Nat.le_log2 (by omega)).mpr this
          omega
      omega

/-- The run exists and meets the hypothesis, for instance for five elements: 1+2+4 = 7 copies, 4 allocations. -/
example : (match pushAllC [10, 20, 30, 40, 50]
    ((({ mem := fun _ => none, next := 0, calls := 0, fails := fun _ _ => false, fresh := none } : Heap Nat), init), 0) with
      | .ok ((h', _), c) _ => h'.calls == 4 && c == 7
      | _ => false) = true := by decide +kernel

/-! ### C05 -/

/-- C05. After `vector i(j)` or `i = j` (not throwing) in any reachable state both have the same contents, and a later
legal history that does not operate on one of them leaves the contents of that one unchanged. -/
theorem c05_copies_independent (fails : Nat → Nat → Bool) (fresh : Option α) (cs cs2 : List (Cmd α)) (c : Cmd α) (i j : Nat)
    (hc : c = .copy i j ∨ c = .opAssign i j)
    (w : World α) (ts : List Bool) (hrun : run (World.start fails fresh) cs = some (w, ts))
    (hl : Legal (World.start fails fresh) cs) (w1 : World α) (hpre : Pre (abs w) c) (hs : step w c = some (w1, false))
    (hl2 : Legal w1 cs2) :
    (∃ l, abs w1 i = some l ∧ abs w1 j = some l ∧ abs w j = some l) ∧
    ∃ w2 ts2, run w1 cs2 = some (w2, ts2) ∧
      ∀ k, (∀ d ∈ cs2, k ∉ targets d) → abs w2 k = abs w1 k := by
  obtain ⟨w', ts', hr', I, _, _⟩ := run_ok cs _ (inv_start fails fresh) hl
  rw [hrun] at hr'; cases hr'
  obtain ⟨w1', t, hs', I1, hok, _⟩ := step_ok I c hpre
  rw [hs] at hs'; cases hs'
  obtain ⟨w2, ts2, hr2, _, hR, _⟩ := run_ok cs2 w1 I1 hl2
  refine ⟨?_, w2, ts2, hr2, fun k hk => run_other hR hk⟩
  have hp := (hok rfl).1
  rcases hc with rfl | rfl
  · simp only [Post] at hp
    obtain ⟨hi, l, hl⟩ := hpre
    have hij : j ≠ i := by rintro rfl; rw [hi] at hl; cases hl
    exact ⟨l, by simp [hp, upd, hl], by simp [hp, upd, hij, hl], hl⟩
  · simp only [Post] at hp
    obtain ⟨_, l, hl⟩ := hpre
    refine ⟨l, by simp [hp, upd, hl], ?_, hl⟩
    by_cases hij : j = i
    · subst hij; simp [hp, upd, hl]
    · simp [hp, upd, hij, hl]

example : ∃ (w w1 : World Nat) (ts : List Bool), run (World.start (fun _ _ => false) none) [.new 0, .push 0 5] = some (w, ts) ∧
    Legal (World.start (α := Nat) (fun _ _ => false) none) [.new 0, .push 0 5] ∧ Pre (abs w) (.copy 1 0) ∧
    step w (.copy 1 0) = some (w1, false) ∧ Legal w1 [.push 1 6, .write 1 0 9] := by
  refine ⟨_, _, _, rfl, ?_, ⟨rfl, _, rfl⟩, rfl, ?_⟩
  · exact Legal.cons rfl rfl (Legal.cons ⟨_, rfl⟩ rfl trivial)
  · exact Legal.cons ⟨_, rfl⟩ rfl (Legal.cons ⟨_, rfl, by decide⟩ rfl trivial)

/-- Every vector of every state reached by a legal program meets the hypotheses `WF` and `Bnd` of the theorems on single
methods below. -/
theorem reachable_wf (fails : Nat → Nat → Bool) (fresh : Option α) (cs : List (Cmd α)) (w : World α) (ts : List Bool)
    (hl : Legal (World.start fails fresh) cs) (hr : run (World.start fails fresh) cs = some (w, ts)) :
    Bnd w.heap ∧ ∀ i v, w.vec i = some v → WF w.heap v := by
  obtain ⟨w', ts', hr', I, _⟩ := run_ok cs _ (inv_start fails fresh) hl
  rw [hr] at hr'; cases hr'
  exact ⟨I.bnd, I.wf⟩

/-! ### C06 -/

/-- C06 (part). `v.push_back(v[k])` appends a copy of `v[k]` when there is spare capacity.
Missing: the case `size() == capacity()`, where the claim fails, see `c06_push_own_element_ub`. -/
theorem c06_push_own_element_partial {h : Heap α} {v : Vec} {p k : Nat} (w : WF h v) (hb : Bnd h) (hp : v.elements = some p)
    (hk : k < v.size) (hs : v.size < v.capacity) :
    ∃ h' v', pushBack (.cell p k) (h, v) = .ok (h', v') () ∧ WF h' v' ∧ view h' v' = view h v ++ [(view h v).getD k none] := by
  have hlen := view_length w
  have w0 := w
  rcases w with ⟨e1, e2, e3⟩ | ⟨q, b, e1, e2, e3, e4, e5, e6⟩
  · omega
  · rw [hp] at e1; cases e1
    have hsp := pushBack_spec (r := .cell p k) (c := b.getD k none) w0 hb ⟨b, e2, by omega, rfl, .inr hs⟩
    have hg : (view h v).getD k none = b.getD k none := by
      simp [view, hp, e2, List.getD, hk]
    rw [hg]
    generalize pushBack (.cell p k) (h, v) = o at hsp
    cases hsp with
    | ok h' v' w' _ e _ _ => exact ⟨h', v', rfl, w', e⟩
    | exc h' _ _ hsz => omega

/-- C06 fails: at full capacity, whenever the allocation succeeds, `v.push_back(v[k])` reads freed memory. -/
theorem c06_push_own_element_ub {h : Heap α} {v : Vec} {p k : Nat} (w : WF h v) (hb : Bnd h) (hp : v.elements = some p)
    (hs : v.size = v.capacity) (halloc : h.fails h.calls (2 * v.capacity) = false) (hsmall : 2 * v.capacity < 2 ^ 63) :
    pushBack (.cell p k) (h, v) = .ub := by
  rcases w with ⟨e1, e2, e3⟩ | ⟨q, b, e1, e2, e3, e4, e5, e6⟩
  · simp [hp] at e1
  · have w0 : WF h v := .inr ⟨q, b, e1, e2, e3, e4, e5, e6⟩
    rw [hp] at e1; cases e1
    have e : (v.size + 1) % word = v.size + 1 := by unfold word; omega
    have hgr : grown v (v.size + 1) = 2 * v.capacity := by unfold grown; omega
    have hg := resize_grow (n := v.size + 1) w0 hb (by omega)
    rw [hgr, halloc] at hg
    have : ¬ (2 ^ 63 ≤ 2 * v.capacity) := by omega
    simp only [this, decide_false, Bool.or_self, Bool.false_eq_true, if_false] at hg
    simp only [pushBack]
    rw [Act.bind_ok (show getThis (h, v) = .ok (h, v) v from rfl), e, Act.bind_ok hg,
      Act.bind_ok (show getThis (grownHeap h v (v.size + 1), _) = .ok (grownHeap h v (v.size + 1), _) _ from rfl)]
    apply Act.bind_ub
    have hpn : p ≠ h.next := by
      have := hb p (by simp [e2]); omega
    simp [deref, load, grownHeap, hp, hpn]

/-- C06 fails in a client program: a one-element vector, `v.push_back(v[0])`. -/
theorem c06_push_own_element_false :
    run (World.start (α := Nat) (fun _ _ => false) none) [.new 0, .push 0 5, .pushElem 0 0 0] = none := by
  rw [← Option.isNone_iff_eq_none]
  decide +kernel

example : ∃ (h : Heap Nat) (v : Vec) (p : Nat), WF h v ∧ Bnd h ∧ v.elements = some p ∧ 0 < v.size ∧ v.size < v.capacity := by
  refine ⟨{ mem := fun q => if q = 0 then some [some 1, some 2] else none, next := 1, calls := 1, fails := fun _ _ => false,
            fresh := none }, ⟨some 0, 2, 1⟩, 0, .inr ⟨0, [some 1, some 2], rfl, rfl, rfl, by decide, by decide, by decide⟩,
    ?_, rfl, by decide, by decide⟩
  intro q hq
  by_cases h : q = 0
  · subst h; decide
  · simp [h] at hq

example : ∃ (h : Heap Nat) (v : Vec) (p : Nat), WF h v ∧ Bnd h ∧ v.elements = some p ∧ v.size = v.capacity ∧
    h.fails h.calls (2 * v.capacity) = false ∧ 2 * v.capacity < 2 ^ 63 := by
  refine ⟨{ mem := fun q => if q = 0 then some [some 1, some 2] else none, next := 1, calls := 1, fails := fun _ _ => false,
            fresh := none }, ⟨some 0, 2, 2⟩, 0, .inr ⟨0, [some 1, some 2], rfl, rfl, rfl, by decide, by decide, by decide⟩,
    ?_, rfl, by decide, rfl, by decide⟩
  intro q hq
  by_cases h : q = 0
  · subst h; decide
  · simp [h] at hq

/-! ### C07 -/

/-- C07 (part). For `n ≥ 1`, after a `resize(n)` that returns, `size() == n` and the first `min(n, old size)` elements
are unchanged; when it throws nothing changed. Missing: `n = 0`, see `c07_resize_zero_false`. -/
theorem c07_resize_partial {h : Heap α} {v : Vec} {n : Nat} (w : WF h v) (hb : Bnd h) (hn : 1 ≤ n) :
    (∃ h' v', resize n (h, v) = .ok (h', v') () ∧ WF h' v' ∧ v'.size = n ∧ (view h' v').length = n ∧
      ∀ k, k < n → k < v.size → (view h' v')[k]? = (view h v)[k]?) ∨
    ∃ h', resize n (h, v) = .exc (h', v) ∧ h'.mem = h.mem := by
  have hr := resize_spec w hb hn
  generalize resize n (h, v) = o at hr
  cases hr with
  | ok h' v' f w' fr hsz e _ _ =>
    refine .inl ⟨h', v', rfl, w', hsz, by rw [view_length w', hsz], ?_⟩
    intro k h1 h2
    have := view_length w
    rw [e, List.getElem?_append_left (by simp; omega), List.getElem?_take, if_pos h1]
  | exc h' hm _ => exact .inr ⟨h', rfl, hm⟩

/-- C07 fails at 0: `resize(0)` never changes anything, so a non-empty vector stays non-empty. -/
theorem c07_resize_zero_false (s : St α) : resize 0 s = .ok s () := resize_zero s

/-- The same in a client program: after `push_back(5); resize(0)` the size is 1. -/
theorem c07_resize_zero_program_false :
    ((run (World.start (α := Nat) (fun _ _ => false) none) [.new 0, .push 0 5, .resize 0 0]).bind (fun x => x.1.vec 0)).map
      (·.size) = some 1 := rfl

/-! ### C08 -/

/-- C08 (part). `erase(begin()+k)` removes exactly element `k`; the offset returned is always the new size, i.e. `end()`.
Missing: the returned iterator is the successor only when the last element was erased, see `c08_erase_return_false`. -/
theorem c08_erase_partial {h : Heap α} {v : Vec} {k : Nat} (w : WF h v) (hb : Bnd h) (hk : k < v.size) :
    ∃ h' v' r, erase k (h, v) = .ok (h', v') r ∧ WF h' v' ∧ v'.size = v.size - 1 ∧ v'.elements = v.elements ∧
      (∀ j, j < k → (view h' v')[j]? = (view h v)[j]?) ∧ (∀ j, k ≤ j → (view h' v')[j]? = (view h v)[j + 1]?) ∧
      r = v'.size := by
  obtain ⟨h', h1, h2, h3, h4⟩ := erase_ok w hb hk
  refine ⟨h', _, _, h1, h2, rfl, rfl, ?_, ?_, rfl⟩
  · intro j hj; rw [h4, List.getElem?_eraseIdx, if_pos hj]
  · intro j hj; rw [h4, List.getElem?_eraseIdx, if_neg (by omega)]

/-- C08 fails: unless the last element is erased, the returned iterator is not the successor's position `k`. -/
theorem c08_erase_return_false {h : Heap α} {v : Vec} {k : Nat} (w : WF h v) (hb : Bnd h) (hk : k + 1 < v.size) :
    ∃ s r, erase k (h, v) = .ok s r ∧ r ≠ k := by
  obtain ⟨h', h1, _⟩ := erase_ok w hb (k := k) (by omega)
  exact ⟨_, _, h1, by omega⟩

/-! ### C09 -/

/-- C09. Whenever `push_back` (of a value or of an element of another vector) throws, the vector has the same storage,
capacity and size, and the heap the same blocks with the same contents (nothing changed, nothing leaked). -/
theorem c09_push_back_strong {h h' : Heap α} {v v' : Vec} {r : Ref α} {c : Option α} (w : WF h v) (hb : Bnd h)
    (hr : RefVal h v r c) (he : pushBack r (h, v) = .exc (h', v')) : v' = v ∧ h'.mem = h.mem := by
  have := pushBack_spec w hb hr
  rw [he] at this
  cases this with
  | exc _ hm _ _ => exact ⟨rfl, hm⟩

/-- C09 for `resize`. -/
theorem c09_resize_strong {h h' : Heap α} {v v' : Vec} {n : Nat} (w : WF h v) (hb : Bnd h)
    (he : resize n (h, v) = .exc (h', v')) : v' = v ∧ h'.mem = h.mem := by
  by_cases hn : 1 ≤ n
  · have := resize_spec w hb hn
    rw [he] at this
    cases this with
    | exc _ hm _ => exact ⟨rfl, hm⟩
  · have : n = 0 := by omega
    subst this
    rw [resize_zero] at he; cases he

/-- The hypotheses of C07-C09 occur: a full vector whose next allocation fails. -/
example : ∃ (h : Heap Nat) (v : Vec) (s : St Nat), WF h v ∧ Bnd h ∧ RefVal h v (.ext 7) (some 7) ∧ 0 + 1 < v.size ∧
    pushBack (.ext 7) (h, v) = .exc s ∧ resize 9 (h, v) = .exc s := by
  refine ⟨{ mem := fun q => if q = 0 then some [some 1, some 2] else none, next := 1, calls := 1, fails := fun k _ => k == 1,
            fresh := none }, ⟨some 0, 2, 2⟩, _, .inr ⟨0, [some 1, some 2], rfl, rfl, rfl, by decide, by decide, by decide⟩,
    ?_, rfl, by decide, rfl, rfl⟩
  intro q hq
  by_cases h : q = 0
  · subst h; decide
  · simp [h] at hq

/-! ### C10 -/

/-- C10. `v.assign(begin()+lo, begin()+hi)` on itself leaves exactly the old subrange; it never reallocates or throws. -/
theorem c10_assign_own_range {h : Heap α} {v : Vec} {lo hi : Nat} (w : WF h v) (hb : Bnd h) (h1 : lo ≤ hi) (h2 : hi ≤ v.size) :
    ∃ h' v', assign (subRange v lo hi) (h, v) = .ok (h', v') () ∧ WF h' v' ∧ v'.size = hi - lo ∧
      ∀ k, k < hi - lo → (view h' v')[k]? = (view h v)[lo + k]? := by
  obtain ⟨h', v', f1, f2, _, f4, _, _⟩ := assign_self w hb h1 h2
  have hlen := view_length w
  have hlen' := view_length f2
  refine ⟨h', v', f1, f2, ?_, ?_⟩
  · rw [← hlen', f4]; simp; omega
  · intro k hk
    rw [f4, List.getElem?_drop, List.getElem?_take, if_pos (by omega)]

/-- C10, self-assignment: in every state `v = v` of a live vector changes no vector at all. -/
theorem c10_self_assign (i : Nat) (w : World α) (v : Vec) (hv : w.vec i = some v) : step w (.opAssign i i) = some (w, false) := by
  simp only [step, hv, onVec, if_true, Act.pure_apply]
  congr 2
  have : setVec w.vec i (some v) = w.vec := by
    funext j; by_cases hj : j = i <;> simp [setVec, hj, hv]
  rw [this]

end Nanostl.Vector
