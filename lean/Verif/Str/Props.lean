import Verif.Str.Compare
import Verif.Vector.Props

/-! Property theorems for `nanostl::string` (C11-C16). -/

namespace Nanostl.Str

open Nanostl.Vector
open Nanostl.Str.Spec (Pre Post Exc Run)

/-- Every operation of the program meets its precondition in the state in which it is executed. -/
def SLegal : World Byte → Spec.Abs → List SCmd → Prop
  | _, _, [] => True
  | w, A, c :: cs => Pre A c ∧ ∀ w' t A', sstep w c = some (w', t) → (if t = true then Exc A c A' else Post A c A') →
      SLegal w' A' cs

/-- Executable check, used to exhibit concrete legal programs that do not throw. -/
def spreB (A : Spec.Abs) : SCmd → Bool
  | .new i => (A i).isNone
  | .fromC i s => (A i).isNone && (match s with | none => true | some b => b.contains 0)
  | .copy i j => (A i).isNone && (A j).join.isSome
  | .plus k i j => (A k).isNone && (A i).join.isSome && (A j).join.isSome
  | .append i j => i != j && (A i).join.isSome && (A j).join.isSome
  | .assign i j => (A i).isSome && (A j).join.isSome
  | .clear i | .del i => (A i).isSome
  | .write i k _ | .erase i k => (match (A i).join with | some l => decide (k < l.length) | none => false)

def snext (A : Spec.Abs) : SCmd → Spec.Abs
  | .new i => Spec.upd A i (some (some []))
  | .fromC i s => Spec.upd A i (some (some (Spec.cchars s)))
  | .copy i j => Spec.upd A i (A j)
  | .plus k i j => Spec.upd A k (some (some ((A i).join.getD [] ++ (A j).join.getD [])))
  | .append i j => Spec.upd A i (some (some ((A i).join.getD [] ++ (A j).join.getD [])))
  | .assign i j => Spec.upd A i (A j)
  | .clear i => Spec.upd A i (some (some []))
  | .write i k c => Spec.upd A i (some (some (((A i).join.getD []).set k c)))
  | .erase i k => Spec.upd A i (some (some (((A i).join.getD []).eraseIdx k)))
  | .del i => Spec.upd A i none

def slegalB : World Byte → Spec.Abs → List SCmd → Bool
  | _, _, [] => true
  | w, A, c :: cs => spreB A c && (match sstep w c with
    | some (w', false) => slegalB w' (snext A c) cs
    | some (_, true) => false
    | none => true)

theorem snext_of_post {A A' : Spec.Abs} {c : SCmd} (h : Post A c A') : A' = snext A c := by
  cases c <;> simp only [Post] at h <;> simp only [snext]
  case plus => obtain ⟨l, m, h1, h2, h3⟩ := h; simp [h1, h2, h3]
  case append => obtain ⟨l, m, h1, h2, h3⟩ := h; simp [h1, h2, h3]
  case write => obtain ⟨l, h1, h3⟩ := h; simp [h1, h3]
  case erase => obtain ⟨l, h1, h3⟩ := h; simp [h1, h3]
  all_goals exact h

theorem spre_of_check {A : Spec.Abs} {c : SCmd} (h : spreB A c = true) : Pre A c := by
  have key : ∀ i, (A i).join.isSome = true → Spec.Good A i := by
    intro i h
    rw [Option.isSome_iff_exists] at h
    obtain ⟨l, h⟩ := h
    refine ⟨l, ?_⟩
    cases hA : A i with
    | none => simp [hA] at h
    | some x => simp [hA] at h; rw [h]
  cases c with
  | new i => simpa [spreB, Pre] using h
  | fromC i s =>
    simp only [spreB, Bool.and_eq_true] at h
    refine ⟨by simpa using h.1, ?_⟩
    intro b hb; subst hb; simpa using h.2
  | copy i j => simp only [spreB, Bool.and_eq_true] at h; exact ⟨by simpa using h.1, key _ h.2⟩
  | plus k i j => simp only [spreB, Bool.and_eq_true] at h; exact ⟨by simpa using h.1.1, key _ h.1.2, key _ h.2⟩
  | append i j => simp only [spreB, Bool.and_eq_true] at h; exact ⟨by simpa using h.1.1, key _ h.1.2, key _ h.2⟩
  | assign i j => simp only [spreB, Bool.and_eq_true] at h; exact ⟨Option.isSome_iff_exists.mp h.1, key _ h.2⟩
  | clear i => exact Option.isSome_iff_exists.mp h
  | del i => exact Option.isSome_iff_exists.mp h
  | write i k c =>
    simp only [spreB] at h
    split at h
    · rename_i l hl
      refine ⟨l, ?_, by simpa using h⟩
      cases hA : A i with
      | none => simp [hA] at hl
      | some x => simp [hA] at hl; rw [hl]
    · cases h
  | erase i k =>
    simp only [spreB] at h
    split at h
    · rename_i l hl
      refine ⟨l, ?_, by simpa using h⟩
      cases hA : A i with
      | none => simp [hA] at hl
      | some x => simp [hA] at hl; rw [hl]
    · cases h

theorem slegal_of_check : ∀ (cs : List SCmd) (w : World Byte) (A : Spec.Abs), slegalB w A cs = true → SLegal w A cs := by
  intro cs
  induction cs with
  | nil => intro w A _; trivial
  | cons c cs ih =>
    intro w A h
    simp only [slegalB, Bool.and_eq_true] at h
    refine ⟨spre_of_check h.1, ?_⟩
    intro w' t A' hs hp
    rw [hs] at h
    cases t with
    | false =>
      have := snext_of_post hp
      subst this
      exact ih w' _ h.2
    | true => exact absurd h.2 (by simp)

theorem sinv_start (fails : Nat → Nat → Bool) (fresh : Option Byte) : SInv (World.start fails fresh) (fun _ => none) :=
  ⟨inv_start fails fresh, rfl, fun _ _ => rfl, fun _ h => by simp at h, fun _ _ h => by simp at h⟩

theorem srun_ok : ∀ (cs : List SCmd) (w : World Byte) (A : Spec.Abs), SInv w A → SLegal w A cs →
    ∃ w' ts A', srun w cs = some (w', ts) ∧ SInv w' A' ∧ Run A cs ts A' := by
  intro cs
  induction cs with
  | nil => intro w A S _; exact ⟨w, [], A, rfl, S, .nil _⟩
  | cons c cs ih =>
    intro w A S hl
    obtain ⟨w1, t, A1, h1, S1, h2, h3⟩ := sstep_ok S c hl.1
    have hl' := hl.2 w1 t A1 h1 (by cases t <;> simp [h2, h3])
    obtain ⟨w2, ts, A2, h4, S2, h5⟩ := ih w1 A1 S1 hl'
    refine ⟨w2, t :: ts, A2, by simp only [srun, h1, h4], S2, ?_⟩
    cases t with
    | false => exact .ok (h2 rfl) h5
    | true => exact .exc (h3 rfl) h5

/-! ### C11, C12 -/

/-- C11, as far as it holds, and the history part of C12. Missing: strings spoilt by a throw (`c11_append_throw_unterminated_false`). Any legal history of string operations (no self-append) runs without undefined behaviour and
without leak; every string not spoilt by a throwing `+=` or `=` holds exactly the characters computed by the same operations on
byte sequences: `size()` is their number, `s[k]` is the k-th, `c_str()[size()]` is NUL and lies in the storage, and
`strlen(c_str())` is the number of characters before the first stored NUL. -/
theorem c11_string_history_partial (fails : Nat → Nat → Bool) (fresh : Option Byte) (cs : List SCmd)
    (hl : SLegal (World.start fails fresh) (fun _ => none) cs) :
    ∃ w ts A, srun (World.start fails fresh) cs = some (w, ts) ∧ Run (fun _ => none) cs ts A ∧
      ((∀ i, A i = none) → ∀ p, w.heap.mem p = none) ∧
      ∀ i l, A i = some (some l) → ∃ v, w.vec i = some v ∧ strSize v = l.length ∧
        (∀ k c, l[k]? = some c → Vector.read k (w.heap, v) = .ok (w.heap, v) c) ∧
        reader w.heap v (strSize v) = some 0 ∧ strSize v < v.capacity ∧
        strlenCStr w.heap v = some (l.takeWhile (· != 0)).length := by
  obtain ⟨w, ts, A, h1, S, h2⟩ := srun_ok cs _ _ (sinv_start fails fresh) hl
  refine ⟨w, ts, A, h1, h2, ?_, ?_⟩
  · intro hn p
    rcases hm : w.heap.mem p with _ | b
    · rfl
    · exfalso
      rcases S.inv.owned p (by simp [hm]) with ⟨i, v, hv, _⟩ | h
      · have := abs_none (S.dead i (hn i)); rw [hv] at this; cases this
      · rw [S.leak] at h; cases h
  · intro i l hA
    obtain ⟨v, hv, h3, h4, _, _⟩ := observe S.inv (S.good i l hA)
    have wv := S.inv.wf i v hv
    have hvl : view w.heap v = enc l := by
      have := S.good i l hA
      rw [abs_of_vec hv] at this
      exact Option.some.inj this
    have hsz : v.size = l.length + 1 := by rw [h3]; simp [enc]
    have h5 := wf_size_le wv
    have h6 := wf_cap_lt wv
    have hss : strSize v = l.length := by unfold strSize word; omega
    refine ⟨v, hv, hss, ?_, ?_, by omega, ?_⟩
    · intro k c hk
      apply h4
      have hkl : k < l.length := by
        rcases Nat.lt_or_ge k l.length with h | h
        · exact h
        · simp [List.getElem?_eq_none h] at hk
      simp only [enc]
      rw [List.getElem?_append_left (by simpa using hkl)]
      simp [hk]
    · rw [hss, holds_reader wv hvl l.length (Nat.le_refl _)]; simp
    · have := strlenLoop_spec (holds_reader wv hvl) (l.length + 1) (v.capacity + 1) 0 (by omega) (by omega) (by omega)
      simp only [strlenCStr]
      rw [this]; simp [cpre]

/-- A program that meets the hypothesis. -/
example : SLegal (World.start (fun _ _ => false) none) (fun _ => none)
    [.new 0, .fromC 1 (some [104, 105, 0]), .append 0 1, .plus 2 0 1, .append 2 0, .write 2 1 65, .erase 0 0, .copy 3 2,
     .assign 1 3, .clear 0, .del 2, .del 0] :=
  slegal_of_check _ _ _ (by decide +kernel)

/-- C11 fails after an exception: an allocation failure inside `s += t` leaves `s` without terminator
(here: the single character 97 in a full block, and no NUL anywhere in it), and `c_str()` then runs off the block. -/
theorem c11_append_throw_unterminated_false :
    ∃ (fails : Nat → Nat → Bool) (cs : List SCmd), SLegal (World.start fails none) (fun _ => none) cs ∧
      ∃ w ts v, srun (World.start fails none) cs = some (w, ts) ∧ w.vec 0 = some v ∧ strlenCStr w.heap v = none := by
  let fails : Nat → Nat → Bool := fun k _ => k == 3
  let cs : List SCmd := [.new 0, .fromC 1 (some [97, 0]), .append 0 1]
  have hl : SLegal (World.start fails none) (fun _ => none) cs := by
    refine ⟨rfl, fun w1 t1 A1 h1 p1 => ?_⟩
    have e1 : (sstep (World.start fails none) (.new 0)).map (·.2) = some false := by decide +kernel
    rw [h1] at e1; simp at e1; subst e1
    have := snext_of_post (by simpa using p1); subst this
    refine ⟨⟨rfl, ?_⟩, fun w2 t2 A2 h2 p2 => ?_⟩
    · intro b hb; cases hb; decide
    have e2 : ((sstep (World.start fails none) (.new 0)).bind (fun x => sstep x.1 (.fromC 1 (some [97, 0])))).map (·.2) =
        some false := by decide +kernel
    rw [h1] at e2; simp [h2] at e2; subst e2
    have := snext_of_post (by simpa using p2); subst this
    exact ⟨⟨by decide, ⟨_, rfl⟩, ⟨_, rfl⟩⟩, fun _ _ _ _ _ => trivial⟩
  obtain ⟨w, ts, A, h1, S, h2⟩ := srun_ok cs _ _ (sinv_start fails none) hl
  have h0 : (srun (World.start fails none) cs).map (fun x => (x.1.vec 0).map (fun v => strlenCStr x.1.heap v)) =
      some (some none) := by decide +kernel
  rw [h1] at h0
  simp only [Option.map_some, Option.some.injEq, Option.map_eq_some_iff] at h0
  obtain ⟨v, hv, hn⟩ := h0
  exact ⟨fails, cs, hl, w, ts, v, h1, hv, hn⟩

/-- C12. `k = i + j` in any reachable state: the result has the characters of `i` followed by those of `j`, so its size is the
sum, and the operands (and every other string) are unchanged. -/
theorem c12_plus {w : World Byte} {A : Spec.Abs} (S : SInv w A) {k i j : Nat} {l m : List Byte} (hk : A k = none)
    (hi : A i = some (some l)) (hj : A j = some (some m)) :
    ∃ w' t, sstep w (.plus k i j) = some (w', t) ∧
      (t = false → (∃ v, w'.vec k = some v ∧ view w'.heap v = (l ++ m).map some ++ [some 0] ∧ strSize v = l.length + m.length) ∧
        ∀ x, x ≠ k → ∀ n, A x = some (some n) → abs w' x = some (n.map some ++ [some 0])) := by
  obtain ⟨w', t, A', h1, S', h2, _⟩ := sstep_ok S (.plus k i j) ⟨hk, ⟨l, hi⟩, m, hj⟩
  refine ⟨w', t, h1, fun ht => ?_⟩
  obtain ⟨l', m', e1, e2, e3⟩ := h2 ht
  rw [hi] at e1; cases e1
  rw [hj] at e2; cases e2
  subst e3
  have hg := S'.good k (l ++ m) (by simp [Spec.upd])
  obtain ⟨v, hv, hvl⟩ := abs_some hg
  have wv := S'.inv.wf k v hv
  have hlen := view_length wv
  rw [hvl] at hlen
  simp [enc] at hlen
  have h5 := wf_size_le wv
  have h6 := wf_cap_lt wv
  refine ⟨⟨v, hv, hvl, by unfold strSize word; omega⟩, ?_⟩
  intro x hx n hn
  exact S'.good x n (by simp [Spec.upd, hx, hn])

/-- C12, `s += t` for different strings. -/
theorem c12_append {w : World Byte} {A : Spec.Abs} (S : SInv w A) {i j : Nat} {l m : List Byte} (hij : i ≠ j)
    (hi : A i = some (some l)) (hj : A j = some (some m)) :
    ∃ w' t, sstep w (.append i j) = some (w', t) ∧
      (t = false → abs w' i = some ((l ++ m).map some ++ [some 0]) ∧
        ∀ x, x ≠ i → ∀ n, A x = some (some n) → abs w' x = some (n.map some ++ [some 0])) := by
  obtain ⟨w', t, A', h1, S', h2, _⟩ := sstep_ok S (.append i j) ⟨hij, ⟨l, hi⟩, m, hj⟩
  refine ⟨w', t, h1, fun ht => ?_⟩
  obtain ⟨l', m', e1, e2, e3⟩ := h2 ht
  rw [hi] at e1; cases e1
  rw [hj] at e2; cases e2
  subst e3
  exact ⟨S'.good i (l ++ m) (by simp [Spec.upd]), fun x hx n hn => S'.good x n (by simp [Spec.upd, hx, hn])⟩

/-- C12, associativity and unit: two programs computing `(a+b)+c` and `a+(b+c)` from the same operands give strings with equal
contents, and `a + ""`, `"" + a` have the contents of `a`. -/
theorem c12_assoc_unit {A A1 A2 B1 B2 C1 C2 : Spec.Abs} {a b c e r s x y : Nat} {la lb lc : List Byte}
    (ha : A a = some (some la)) (hb : A b = some (some lb)) (hc : A c = some (some lc)) (he : A e = some (some []))
    (hra : r ≠ a) (hrc : r ≠ c) (h1 : Post A (.plus r a b) A1) (h2 : Post A1 (.plus s r c) A2)
    (h3 : Post A (.plus r b c) B1) (h4 : Post B1 (.plus s a r) B2) (h5 : Post A (.plus x a e) C1) (h6 : Post A (.plus y e a) C2) :
    A2 s = B2 s ∧ C1 x = A a ∧ C2 y = A a := by
  obtain ⟨_, _, p1, p2, rfl⟩ := h1
  obtain ⟨_, _, q1, q2, rfl⟩ := h2
  obtain ⟨_, _, r1, r2, rfl⟩ := h3
  obtain ⟨_, _, s1, s2, rfl⟩ := h4
  obtain ⟨_, _, t1, t2, rfl⟩ := h5
  obtain ⟨_, _, u1, u2, rfl⟩ := h6
  simp only [Spec.upd, if_true, Ne.symm hrc, Ne.symm hra, if_false] at *
  rw [ha] at p1; cases p1
  rw [hb] at p2; cases p2
  rw [hb] at r1; cases r1
  rw [hc] at r2; cases r2
  cases q1
  rw [hc] at q2; cases q2
  rw [ha] at s1; cases s1
  cases s2
  rw [ha] at t1; cases t1
  rw [he] at t2; cases t2
  rw [he] at u1; cases u1
  rw [ha] at u2; cases u2
  simp [ha]

/-! ### C13 -/

/-- `push_back` in a loop of the vector's own elements `[0,n)`, destination disjoint, as long as capacity lasts. -/
theorem selfLoop_ok {v : Vec} {p : Nat} (hp : v.elements = some p) (hcap : v.capacity < 2 ^ 63) :
    ∀ (n i k : Nat) (h : Heap Byte) (b : List (Option Byte)), h.mem p = some b → b.length = v.capacity → i + n ≤ k →
      k + n ≤ v.capacity →
      ∃ b', assignLoop ((List.range' i n).map (Ref.cell p)) (h, { v with size := k }) =
          .ok ({ h with mem := setMem h.mem p (some b') }, { v with size := k + n }) () ∧ b'.length = b.length ∧
        b'.take (k + n) = b.take k ++ (b.drop i).take n := by
  intro n
  induction n with
  | zero =>
    intro i k h b hm hl _ hc
    refine ⟨b, ?_, rfl, by simp⟩
    have : setMem h.mem p (some b) = h.mem := by
      funext q; by_cases hq : q = p <;> simp [setMem, hq, hm]
    simp [assignLoop, Act.pure_apply, this]
  | succ n ih =>
    intro i k h b hm hl hik hc
    have hr : ∀ u : Vec, deref (Ref.cell p i) (h, u) = .ok (h, u) (b.getD i none) := fun u => by
      simp only [deref]; exact load_ok hm (by omega)
    rw [List.range'_succ, List.map_cons]
    simp only [assignLoop]
    rw [Act.bind_ok (pushBack_fits (v := { v with size := k }) hp hm hl (by simp only; omega) hcap hr)]
    obtain ⟨b', h1, h2, h3⟩ := ih (i + 1) (k + 1) { h with mem := setMem h.mem p (some (b.set k (b.getD i none))) }
      (b.set k (b.getD i none)) (by simp) (by simpa using hl) (by omega) (by omega)
    refine ⟨b', ?_, by simpa using h2, ?_⟩
    · rw [h1, setMem_setMem, show k + 1 + n = k + (n + 1) by omega]
    · have hlt : i < b.length := by omega
      rw [show k + (n + 1) = k + 1 + n by omega, h3, List.take_succ_eq_append_getElem (by simp; omega),
        List.take_set_of_le (Nat.le_refl _), List.drop_eq_getElem_cons hlt, List.take_succ_cons]
      have e : List.take n (List.drop (i + 1) (b.set k (b.getD i none))) = List.take n (List.drop (i + 1) b) := by
        apply List.ext_getElem?
        intro j
        simp only [List.getElem?_take, List.getElem?_drop]
        split
        · rw [List.getElem?_set_ne (by omega)]
        · rfl
      rw [e]
      simp [List.getElem?_eq_getElem hlt]

/-- The first `push_back` beyond the capacity of such a loop faults or throws. -/
theorem selfLoop_over {v : Vec} {p : Nat} (hp : v.elements = some p) (hcap : v.capacity < 2 ^ 63) (hpos : 0 < v.capacity) :
    ∀ (n i k : Nat) (h : Heap Byte) (b : List (Option Byte)), h.mem p = some b → b.length = v.capacity → i + n ≤ k → Bnd h →
      v.capacity < k + n → k ≤ v.capacity →
      assignLoop ((List.range' i n).map (Ref.cell p)) (h, { v with size := k }) = .ub ∨
      ∃ s, assignLoop ((List.range' i n).map (Ref.cell p)) (h, { v with size := k }) = .exc s := by
  intro n
  induction n with
  | zero => intro i k h b _ _ _ _ h1 h2; omega
  | succ n ih =>
    intro i k h b hm hl hik hb h1 h2
    rw [List.range'_succ, List.map_cons]
    simp only [assignLoop]
    by_cases hk : k < v.capacity
    · have hr : ∀ u : Vec, deref (Ref.cell p i) (h, u) = .ok (h, u) (b.getD i none) := fun u => by
        simp only [deref]; exact load_ok hm (by omega)
      rw [Act.bind_ok (pushBack_fits (v := { v with size := k }) hp hm hl hk hcap hr)]
      refine ih (i + 1) (k + 1) { h with mem := setMem h.mem p (some (b.set k (b.getD i none))) }
        (b.set k (b.getD i none)) (by simp) (by simpa using hl) (by omega) ?_ (by omega) (by omega)
      intro q hq
      simp only [setMem] at hq
      split at hq
      · rename_i e; rw [e]; exact hb p (by simp [hm])
      · exact hb q hq
    · have hkc : k = v.capacity := by omega
      have w : WF h { v with size := k } := .inr ⟨p, b, hp, hm, hl, by simp only; omega, hpos, hcap⟩
      by_cases hf : 2 ^ 63 ≤ 2 * v.capacity ∨ h.fails h.calls (2 * v.capacity) = true
      · right
        have e : (k + 1) % word = k + 1 := by unfold word; omega
        have hgr : grown { v with size := k } (k + 1) = 2 * v.capacity := by simp only [grown]; omega
        have hg := resize_grow (n := k + 1) w hb (by simp only; omega)
        rw [hgr, if_pos (by simpa using hf)] at hg
        refine ⟨_, Act.bind_exc (s' := ({ h with calls := h.calls + 1 }, { v with size := k })) ?_⟩
        simp only [pushBack]
        rw [Act.bind_ok (show getThis (h, { v with size := k }) = .ok (h, { v with size := k }) _ from rfl), e, Act.bind_exc hg]
      · left
        simp only [not_or, Bool.not_eq_true] at hf
        exact Act.bind_ub (c06_push_own_element_ub w hb hp hkc hf.2 (by simp only; omega))

/-- C13 fails for every string: `s += s` reads freed memory, or throws, or leaves `l` twice with no terminator,
so that `size()` is one too small (2^64-1 for the empty string). -/
theorem c13_self_append_false {h : Heap Byte} {v : Vec} {l : List Byte} (w : WF h v) (hb : Bnd h)
    (hv : view h v = l.map some ++ [some 0]) :
    (2 * l.length ≤ v.capacity → ∃ h' v', append none (h, v) = .ok (h', v') () ∧ view h' v' = (l ++ l).map some ∧
      strSize v' ≠ l.length + l.length) ∧
    (v.capacity < 2 * l.length → append none (h, v) = .ub ∨ ∃ s, append none (h, v) = .exc s) := by
  have hlen := view_length w
  rw [hv] at hlen
  simp at hlen
  have h5 := wf_size_le w
  have h6 := wf_cap_lt w
  rcases w with ⟨e1, e2, e3⟩ | ⟨p, b, e1, e2, e3, e4, e5, e6⟩
  · omega
  have hb' : b.take v.size = l.map some ++ [some 0] := by simpa [view, e1, e2] using hv
  have hbl : b.take l.length = l.map some := by
    have := congrArg (List.take l.length) hb'
    rw [List.take_take, Nat.min_eq_left (by omega), List.take_append_of_le_length (by simp)] at this
    rw [this, List.take_of_length_le (by simp)]
  have hstart : append none (h, v) = assignLoop ((List.range' 0 l.length).map (Ref.cell p)) (h, { v with size := l.length }) := by
    simp only [append]
    rw [Act.bind_ok (show getThis (h, v) = .ok (h, v) v from rfl)]
    have : ¬ v.size < 1 := by omega
    simp only [this, if_false]
    rw [Act.bind_ok (popBack_eq (by omega) (by omega)), show v.size - 1 = l.length by omega]
    rw [Act.bind_ok (show getThis (h, { v with size := l.length }) = .ok (h, { v with size := l.length }) _ from rfl)]
    simp [wholeRange, subRange, e1, range]
  constructor
  · intro hc
    obtain ⟨b', g1, g2, g3⟩ := selfLoop_ok e1 e6 l.length 0 l.length h b e2 e3 (by omega) (by omega)
    refine ⟨_, _, by rw [hstart, g1], ?_, ?_⟩
    · simp only [view, e1, setMem_same, Option.getD_some]
      rw [g3, List.drop_zero, hbl]; simp
    · simp only [strSize, word]; omega
  · intro hc
    rw [hstart]
    exact selfLoop_over e1 e6 e5 l.length 0 l.length h b e2 e3 (by omega) hb (by omega) (by omega)

/-- The hypotheses of C13, C15 hold of a concrete string: "a" in a block of two bytes. -/
example : ∃ (h : Heap Byte) (v : Vec), WF h v ∧ Bnd h ∧ view h v = [97].map some ++ [some 0] ∧ 2 * 1 ≤ v.capacity := by
  refine ⟨{ mem := fun q => if q = 0 then some [some 97, some 0] else none, next := 1, calls := 1, fails := fun _ _ => false,
            fresh := none }, ⟨some 0, 2, 2⟩, .inr ⟨0, [some 97, some 0], rfl, rfl, rfl, by decide, by decide, by decide⟩,
    ?_, rfl, by decide⟩
  intro q hq
  by_cases h : q = 0
  · subst h; decide
  · simp [h] at hq

/-- C13 in a client program: `string s("abc"); s += s;` has undefined behaviour. -/
theorem c13_self_append_program_false :
    srun (World.start (fun _ _ => false) none) [.fromC 0 (some [97, 98, 99, 0]), .append 0 0] = none := by
  rw [← Option.isNone_iff_eq_none]
  decide +kernel

/-! ### C14 -/

theorem takeWhile_noNul : ∀ {l : List Byte}, 0 ∉ l → l.takeWhile (· != 0) = l
  | [], _ => rfl
  | x :: xs, h => by
    have h1 : x ≠ 0 := fun e => h (by simp [e])
    have h2 : 0 ∉ xs := fun e => h (by simp [e])
    rw [List.takeWhile_cons]
    simp [h1, takeWhile_noNul h2]

theorem pos_of_order {r : Int} {x y : List Byte} (h2 : r < 0 ↔ x < y) (h3 : r = 0 ↔ x = y) : 0 < r ↔ y < x := by
  constructor
  · intro hr
    rcases Std.lt_trichotomy x y with h | h | h
    · have := h2.mpr h; omega
    · have := h3.mpr h; omega
    · exact h
  · intro hlt
    have n1 : ¬ r < 0 := fun h => absurd (List.lt_trans hlt (h2.mp h)) (List.lt_irrefl _)
    have n2 : r ≠ 0 := fun h => by rw [h3.mp h] at hlt; exact absurd hlt (List.lt_irrefl _)
    omega

/-- C14. In every reachable state, comparing two strings is defined, and the sign of `compare` is the lexicographic order of
the bytes (up to the first NUL): negative, zero, positive for less, equal, greater. -/
theorem c14_compare {w : World Byte} {A : Spec.Abs} (S : SInv w A) {i j : Nat} {u v : Vec} {l m : List Byte}
    (hu : w.vec i = some u) (hv : w.vec j = some v) (hi : A i = some (some l)) (hj : A j = some (some m)) :
    ∃ r, compareStr w.heap u v = some r ∧
      (r < 0 ↔ l.takeWhile (· != 0) < m.takeWhile (· != 0)) ∧ (r = 0 ↔ l.takeWhile (· != 0) = m.takeWhile (· != 0)) ∧
      (0 < r ↔ m.takeWhile (· != 0) < l.takeWhile (· != 0)) := by
  have hul : view w.heap u = enc l := by
    have := S.good i l hi
    rw [abs_of_vec hu] at this; exact Option.some.inj this
  have hvm : view w.heap v = enc m := by
    have := S.good j m hj
    rw [abs_of_vec hv] at this; exact Option.some.inj this
  have wu := S.inv.wf i u hu
  have hlen := view_length wu
  rw [hul] at hlen
  simp [enc] at hlen
  have := wf_size_le wu
  obtain ⟨r, h1, h2, h3⟩ := compareLoop_spec (holds_reader wu hul) (holds_reader (S.inv.wf j v hv) hvm) (l.length + 1)
    (u.capacity + 1) 0 (by omega) (by omega) (by omega) (by omega)
  simp only [List.drop_zero, cpre] at h2 h3
  exact ⟨r, h1, h2, h3, pos_of_order h2 h3⟩

/-- C14 against a C string in memory. -/
theorem c14_compare_cstr {w : World Byte} {A : Spec.Abs} (S : SInv w A) {i : Nat} {u : Vec} {l m t : List Byte}
    (hu : w.vec i = some u) (hi : A i = some (some l)) (hm : 0 ∉ m) :
    ∃ r, compareC w.heap u (m ++ 0 :: t) = some r ∧ (r < 0 ↔ l.takeWhile (· != 0) < m) ∧ (r = 0 ↔ l.takeWhile (· != 0) = m) ∧
      (0 < r ↔ m < l.takeWhile (· != 0)) := by
  have hul : view w.heap u = enc l := by
    have := S.good i l hi
    rw [abs_of_vec hu] at this; exact Option.some.inj this
  have wu := S.inv.wf i u hu
  have hlen := view_length wu
  rw [hul] at hlen
  simp [enc] at hlen
  have := wf_size_le wu
  have hq : Holds (fun i => (m ++ 0 :: t)[i]?) m := by
    intro k hk
    rcases Nat.lt_or_ge k m.length with h | h
    · simp [List.getElem?_append_left h, List.getElem?_eq_getElem h]
    · have : k = m.length := by omega
      subst this; simp
  obtain ⟨r, h1, h2, h3⟩ := compareLoop_spec (holds_reader wu hul) hq (l.length + 1)
    (u.capacity + 1) 0 (by omega) (by omega) (by omega) (by omega)
  have hmm : m.takeWhile (· != 0) = m := by
    exact takeWhile_noNul hm
  simp only [List.drop_zero, cpre, hmm] at h2 h3
  exact ⟨r, h1, h2, h3, pos_of_order h2 h3⟩

/-- C14: `==`, `!=`, `<`, `>` of two strings are equality and order of the bytes up to the first NUL. -/
theorem c14_operators {w : World Byte} {A : Spec.Abs} (S : SInv w A) {i j : Nat} {u v : Vec} {l m : List Byte}
    (hu : w.vec i = some u) (hv : w.vec j = some v) (hi : A i = some (some l)) (hj : A j = some (some m)) :
    (∃ b, opEq w.heap u v = some b ∧ (b = true ↔ l.takeWhile (· != 0) = m.takeWhile (· != 0))) ∧
    (∃ b, opNe w.heap u v = some b ∧ (b = true ↔ l.takeWhile (· != 0) ≠ m.takeWhile (· != 0))) ∧
    (∃ b, opLt w.heap u v = some b ∧ (b = true ↔ l.takeWhile (· != 0) < m.takeWhile (· != 0))) ∧
    ∃ b, opGt w.heap u v = some b ∧ (b = true ↔ m.takeWhile (· != 0) < l.takeWhile (· != 0)) := by
  obtain ⟨r, h1, h2, h3, h4⟩ := c14_compare S hu hv hi hj
  simp only [opEq, opNe, opLt, opGt, h1, Option.map_some, Option.some.injEq, exists_eq_left', decide_eq_true_eq]
  exact ⟨h3, not_congr h3, h2, h4⟩

/-- C14: the same operators with a C string on the right. -/
theorem c14_operators_cstr {w : World Byte} {A : Spec.Abs} (S : SInv w A) {i : Nat} {u : Vec} {l m t : List Byte}
    (hu : w.vec i = some u) (hi : A i = some (some l)) (hm : 0 ∉ m) :
    (∃ b, opEqC w.heap u (m ++ 0 :: t) = some b ∧ (b = true ↔ l.takeWhile (· != 0) = m)) ∧
    (∃ b, opNeC w.heap u (m ++ 0 :: t) = some b ∧ (b = true ↔ l.takeWhile (· != 0) ≠ m)) ∧
    (∃ b, opLtC w.heap u (m ++ 0 :: t) = some b ∧ (b = true ↔ l.takeWhile (· != 0) < m)) ∧
    ∃ b, opGtC w.heap u (m ++ 0 :: t) = some b ∧ (b = true ↔ m < l.takeWhile (· != 0)) := by
  obtain ⟨r, h1, h2, h3, h4⟩ := c14_compare_cstr (t := t) S hu hi hm
  simp only [opEqC, opNeC, opLtC, opGtC, h1, Option.map_some, Option.some.injEq, exists_eq_left', decide_eq_true_eq]
  exact ⟨h3, not_congr h3, h2, h4⟩

/-- C14: on strings without interior NUL, `==` is equality of the character sequences and `<` is a strict total order. -/
theorem c14_order {w : World Byte} {A : Spec.Abs} (S : SInv w A) {i j k : Nat} {u v x : Vec} {l m n : List Byte}
    (hu : w.vec i = some u) (hv : w.vec j = some v) (hx : w.vec k = some x)
    (hi : A i = some (some l)) (hj : A j = some (some m)) (hk : A k = some (some n))
    (nl : 0 ∉ l) (nm : 0 ∉ m) (nn : 0 ∉ n) :
    ∃ a b c, compareStr w.heap u v = some a ∧ compareStr w.heap v x = some b ∧ compareStr w.heap u x = some c ∧
      (a = 0 ↔ l = m) ∧ (a < 0 ∧ b < 0 → c < 0) ∧ (a < 0 ∨ a = 0 ∨ 0 < a) ∧ (l = m → ¬ a < 0) ∧
      (∃ a', compareStr w.heap v u = some a' ∧ (a' < 0 ↔ 0 < a) ∧ (a' = 0 ↔ a = 0)) := by
  have tw : ∀ l : List Byte, 0 ∉ l → l.takeWhile (· != 0) = l := fun l hl => takeWhile_noNul hl
  obtain ⟨a, a1, a2, a3, a4⟩ := c14_compare S hu hv hi hj
  obtain ⟨b, b1, b2, b3, b4⟩ := c14_compare S hv hx hj hk
  obtain ⟨c, c1, c2, c3, c4⟩ := c14_compare S hu hx hi hk
  obtain ⟨d, d1, d2, d3, d4⟩ := c14_compare S hv hu hj hi
  rw [tw l nl, tw m nm] at a2 a3 a4
  rw [tw n nn, tw m nm] at b2 b3 b4
  rw [tw n nn, tw l nl] at c2 c3 c4
  rw [tw l nl, tw m nm] at d2 d3 d4
  refine ⟨a, b, c, a1, b1, c1, a3, ?_, by omega, ?_, d, d1, by rw [d2, a4], by rw [d3, a3]; exact eq_comm⟩
  · intro ⟨h1, h2⟩; exact c2.mpr (List.lt_trans (a2.mp h1) (b2.mp h2))
  · intro h hlt; rw [a3.mpr h] at hlt; omega

/-- States with good strings as required by C12, C14 are reached, for instance by this program. -/
example : ∃ w ts A, srun (World.start (fun _ _ => false) none) [.fromC 0 (some [97, 0]), .fromC 1 (some [98, 99, 0]), .new 2] =
    some (w, ts) ∧ SInv w A ∧ Run (fun _ => none) [.fromC 0 (some [97, 0]), .fromC 1 (some [98, 99, 0]), .new 2] ts A :=
  srun_ok _ _ _ (sinv_start _ _) (slegal_of_check _ _ _ (by decide +kernel))

/-! ### C15 -/

/-- C15 (part). For a non-empty string `empty()` and `size()` agree. Missing: the empty string, see `c15_empty_false`. -/
theorem c15_empty_partial {w : World Byte} {A : Spec.Abs} (S : SInv w A) {i : Nat} {v : Vec} {l : List Byte}
    (hv : w.vec i = some v) (hi : A i = some (some l)) (hne : l ≠ []) : (strEmpty v = true ↔ strSize v = 0) := by
  have hvl : view w.heap v = enc l := by
    have := S.good i l hi
    rw [abs_of_vec hv] at this; exact Option.some.inj this
  have wv := S.inv.wf i v hv
  have hlen := view_length wv
  rw [hvl] at hlen
  simp [enc] at hlen
  have h5 := wf_size_le wv
  have h6 := wf_cap_lt wv
  have : 0 < l.length := List.length_pos_iff.mpr hne
  simp only [strEmpty, strSize, word, beq_iff_eq]
  omega

/-- C15 fails: `empty()` is false for every properly built string, also for the empty one, whose `size()` is 0. -/
theorem c15_empty_false {w : World Byte} {A : Spec.Abs} (S : SInv w A) {i : Nat} {v : Vec}
    (hv : w.vec i = some v) (hi : A i = some (some [])) : strEmpty v = false ∧ strSize v = 0 := by
  have hvl : view w.heap v = enc [] := by
    have := S.good i [] hi
    rw [abs_of_vec hv] at this; exact Option.some.inj this
  have hlen := view_length (S.inv.wf i v hv)
  rw [hvl] at hlen
  simp [enc] at hlen
  simp [strEmpty, strSize, ← hlen, word]

/-! ### C16 -/

/-- C16 (part). `string(p, n)` stores exactly the `n` bytes `p[0..n)` and reads nothing else: `buf` may end right after them.
Missing: no terminator is stored, see `c16_count_false`. -/
theorem c16_count_partial {h : Heap Byte} (hb : Bnd h) (buf : List Byte) (n : Nat) (hn : n ≤ buf.length) :
    MOut h init ((buf.take n).map some) (ctorCount buf n (h, init)) := by
  have := m_rangeLoop buf n 0 h init (.inl ⟨rfl, rfl, rfl⟩) hb (by omega)
  simp only [ctorCount]
  simpa [view, init] using this

/-- C16 (part). `string(first, last)` with `last` inside the buffer stores the bytes from `first` up to and including `*last`. -/
theorem c16_range_partial {h : Heap Byte} (hb : Bnd h) (buf : List Byte) (first last : Nat) (h1 : first ≤ last)
    (h2 : last < buf.length) :
    MOut h init (((buf.drop first).take (last + 1 - first)).map some) (ctorRange buf first last (h, init)) := by
  have := m_rangeLoop buf (last + 1 - first) first h init (.inl ⟨rfl, rfl, rfl⟩) hb (by omega)
  simp only [ctorRange]
  simpa [view, init] using this

/-- An empty heap whose allocations all succeed. -/
def heap0 : Heap Byte := { mem := fun _ => none, next := 0, calls := 0, fails := fun _ _ => false, fresh := none }

def checkCount (o : Out (St Byte) Unit) : Bool :=
  match o with
  | .ok (h, v) _ => strSize v == 1 && strlenCStr h v == none
  | _ => false

theorem checkCount_ok (o : Out (St Byte) Unit) (h0 : checkCount o = true) :
    ∃ h v, o = .ok (h, v) () ∧ strSize v = 1 ∧ strlenCStr h v = none := by
  cases o with
  | ok s b =>
    simp only [checkCount, Bool.and_eq_true, beq_iff_eq] at h0
    exact ⟨s.1, s.2, rfl, h0⟩
  | exc s => cases h0
  | ub => cases h0

/-- C16 fails: a string built by `string(p, n)` from `n` bytes other than NUL has size `n - 1` and, if the block is full, its
`c_str()` has no terminator (here `n = 2`). -/
theorem c16_count_false : ∃ h v, ctorCount [97, 98] 2 (heap0, init) = .ok (h, v) () ∧ strSize v = 1 ∧ strlenCStr h v = none := by
  have h0 : checkCount (ctorCount [97, 98] 2 (heap0, init)) = true := by decide +kernel
  exact checkCount_ok _ h0

/-- C16 fails: with the usual meaning of a range, `last` one past the end of the buffer, `string(first, last)` reads outside
the buffer, whenever the allocations succeed; here stated as: it never returns normally. -/
theorem c16_range_false {h : Heap Byte} (buf : List Byte) (first : Nat) (h1 : first ≤ buf.length) :
    ∀ s, ctorRange buf first buf.length (h, init) ≠ .ok s () := by
  have key : ∀ (n i : Nat) (s s' : St Byte), buf.length < i + n → i ≤ buf.length → rangeLoop buf n i s ≠ .ok s' () := by
    intro n
    induction n with
    | zero => intro i s s' h1 h2; omega
    | succ n ih =>
      intro i s s' h1 h2
      simp only [rangeLoop]
      rcases hc : buf[i]? with _ | c
      · simp [Act.ub]
      · simp only
        have : i < buf.length := by
          rcases Nat.lt_or_ge i buf.length with h | h
          · exact h
          · simp [List.getElem?_eq_none h] at hc
        rw [Act.bind_apply]
        split
        · exact ih (i + 1) _ _ (by omega) (by omega)
        · simp
        · simp
  intro s
  exact key _ _ _ _ (by omega) h1

theorem cstrLoop_ends : ∀ (b : List Byte) (st st' : St Byte), cstrLoop b st = .ok st' () → 0 ∈ b
  | [], _, _, h => by cases h
  | c :: cs, st, st', h => by
    by_cases hc : c = 0
    · simp [hc]
    · simp only [cstrLoop, ne_eq, hc, not_false_eq_true, if_true, Act.bind_apply] at h
      split at h
      · exact List.mem_cons_of_mem _ (cstrLoop_ends cs _ _ h)
      · cases h
      · cases h

/-- C11: that the memory has a terminator is needed: without one the constructor from a C string never returns. -/
theorem c11_needs_terminator (st st' : St Byte) (b : List Byte) (h : ctorCStr (some b) st = .ok st' ()) : 0 ∈ b := by
  simp only [ctorCStr, Act.bind_apply] at h
  split at h
  · split at h
    · rename_i h2
      exact cstrLoop_ends b _ _ h2
    · cases h
    · cases h
  · cases h
  · cases h

end Nanostl.Str
