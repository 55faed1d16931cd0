import Verif.Vector.World
import Verif.Str.Spec

/-! Helper lemmas for strings. -/

namespace Nanostl.Str

open Nanostl.Vector

/-- Outcome of a piece of code working on one vector: on return the contents are `cs`; a throw leaves some well formed vector. -/
inductive MOut (h : Heap Byte) (v : Vec) (cs : List (Option Byte)) : Out (St Byte) Unit → Prop
  | ok (h' v') : WF h' v' → Frame h v h' v' → view h' v' = cs → MOut h v cs (.ok (h', v') ())
  | exc (h' v') : WF h' v' → Frame h v h' v' → MOut h v cs (.exc (h', v'))

theorem MOut.bind {h : Heap Byte} {v : Vec} {cs cs' : List (Option Byte)} {m : Act (St Byte) Unit} {f : Unit → Act (St Byte) Unit}
    (a : MOut h v cs (m (h, v)))
    (b : ∀ h' v', WF h' v' → Frame h v h' v' → view h' v' = cs → MOut h' v' cs' (f () (h', v'))) :
    MOut h v cs' ((m >>= f) (h, v)) := by
  generalize ho : m (h, v) = o at a
  cases a with
  | ok h' v' w fr e =>
    rw [Act.bind_ok ho]
    have := b h' v' w fr e
    generalize f () (h', v') = o2 at this
    cases this with
    | ok h2 v2 w2 fr2 e2 => exact .ok _ _ w2 (fr.trans fr2) e2
    | exc h2 v2 w2 fr2 => exact .exc _ _ w2 (fr.trans fr2)
  | exc h' v' w fr =>
    rw [Act.bind_exc ho]
    exact .exc _ _ w fr

theorem exc_frame {h h' : Heap Byte} {v : Vec} (hb : Bnd h) (hm : h'.mem = h.mem) (hn : h'.next = h.next) : Frame h v h' v :=
  ⟨by omega, by intro q hq; rw [hm] at hq; rw [hn]; exact hb q hq, fun q _ _ => by rw [hm],
    fun q hq => by
      rw [hm] at hq
      by_cases e : some q = v.elements
      · exact .inl e
      · exact .inr ⟨hq, e⟩, .inl rfl⟩

theorem m_push {h : Heap Byte} {v : Vec} (w : WF h v) (hb : Bnd h) (c : Byte) :
    MOut h v (view h v ++ [some c]) (pushBack (.ext c) (h, v)) := by
  have := pushBack_spec (r := .ext c) (c := some c) w hb rfl
  generalize pushBack (.ext c) (h, v) = o at this
  cases this with
  | ok h' v' w' f e _ _ => exact .ok _ _ w' f e
  | exc h' hm hn _ => exact .exc _ _ (wf_of_mem w (fun _ _ => by rw [hm])) (exc_frame hb hm hn)

theorem m_assignLoop {h : Heap Byte} {v : Vec} {rs cs} (w : WF h v) (hb : Bnd h) (s : StableL h v rs cs) :
    MOut h v (view h v ++ cs) (assignLoop rs (h, v)) := by
  have := assignLoop_spec rs cs h v w hb s
  generalize assignLoop rs (h, v) = o at this
  cases this with
  | ok h' v' w' f e _ => exact .ok _ _ w' f e
  | exc h' v' n w' f _ _ _ => exact .exc _ _ w' f

theorem m_assign {h : Heap Byte} {v : Vec} {rs cs} (w : WF h v) (hb : Bnd h) (s : StableL h v rs cs) :
    MOut h v cs (assign rs (h, v)) := by
  have := assign_spec w hb s
  generalize assign rs (h, v) = o at this
  cases this with
  | ok h' v' w' f e _ => exact .ok _ _ w' f e
  | exc h' v' n w' f _ _ _ => exact .exc _ _ w' f

theorem m_clear {h : Heap Byte} {v : Vec} (w : WF h v) (hb : Bnd h) : MOut h v [] (clear (h, v)) := by
  rw [clear_eq]
  exact .ok _ _ (wf_clear w) (size_frame hb rfl) (view_clear h v)

/-- `resize(1); data_[0] = 0` on an empty vector. -/
theorem m_term {h : Heap Byte} {v : Vec} (w : WF h v) (hb : Bnd h) :
    MOut h v [some 0] ((do resize 1; write 0 (0 : Byte)) (h, v)) := by
  have hr := resize_spec (n := 1) w hb (Nat.le_refl _)
  generalize ho : resize 1 (h, v) = o at hr
  cases hr with
  | exc h' hm hn =>
    rw [Act.bind_exc ho]
    exact .exc _ _ (wf_of_mem w (fun _ _ => by rw [hm])) (exc_frame hb hm hn)
  | ok h' v' f w' fr hs e _ _ =>
    rw [Act.bind_ok ho]
    obtain ⟨h2, g1, g2, g3, g4⟩ := write_ok (0 : Byte) w' fr.bnd (k := 0) (by omega)
    rw [g1]
    refine .ok _ _ g2 (fr.trans g3) ?_
    have hl := view_length w'
    rw [hs] at hl
    rw [g4]
    match hv : view h' v', hl with
    | [x], _ => rfl

theorem m_ctorDefault {h : Heap Byte} {v : Vec} (w : WF h v) (hb : Bnd h) : MOut h v [some 0] (ctorDefault (h, v)) :=
  m_term w hb

theorem m_strClear {h : Heap Byte} {v : Vec} (w : WF h v) (hb : Bnd h) : MOut h v [some 0] (strClear (h, v)) :=
  (m_clear w hb).bind (fun _ _ w' f _ => m_term w' f.bnd)

/-- `clear` cannot throw on a string that has storage. -/
theorem strClear_noexc {h : Heap Byte} {v : Vec} (w : WF h v) (hs : 1 ≤ v.capacity) {s} : strClear (h, v) ≠ .exc s := by
  simp only [strClear]
  rw [Act.bind_ok (clear_eq h v), Act.bind_ok (resize_fits (v := { v with size := 0 }) (Nat.le_refl 1) hs)]
  intro hc
  simp only [write] at hc
  rcases w with ⟨e1, e2, e3⟩ | ⟨p, b, e1, e2, e3, e4, e5, e6⟩
  · omega
  · rw [Act.bind_ok (show getThis (h, { v with size := 1 }) = .ok (h, { v with size := 1 }) _ from rfl)] at hc
    simp only [e1] at hc
    rw [store_ok _ e2 (by omega)] at hc
    cases hc

theorem m_cstrLoop : ∀ (b : List Byte) (h : Heap Byte) (v : Vec), WF h v → Bnd h → 0 ∈ b →
    MOut h v (view h v ++ (b.takeWhile (· != 0)).map some) (cstrLoop b (h, v)) := by
  intro b
  induction b with
  | nil => intro h v w hb hm; cases hm
  | cons c cs ih =>
    intro h v w hb hm
    by_cases hc : c = 0
    · subst hc
      simp only [cstrLoop]
      simpa [Act.pure_apply] using MOut.ok _ _ w (Frame.refl hb) rfl
    · simp only [cstrLoop, ne_eq, hc, not_false_eq_true, if_true]
      have hm' : (0 : Byte) ∈ cs := by
        rcases List.mem_cons.mp hm with h0 | h0
        · exact absurd h0.symm hc
        · exact h0
      refine (m_push w hb c).bind (fun h' v' w' f e => ?_)
      have := ih h' v' w' f.bnd hm'
      rw [e] at this
      simpa [hc] using this

theorem m_ctorCStr {h : Heap Byte} {v : Vec} (s : Option (List Byte)) (w : WF h v) (hb : Bnd h) (hs : ∀ b, s = some b → 0 ∈ b) :
    MOut h v ((Spec.cchars s).map some ++ [some 0]) (ctorCStr s (h, v)) := by
  refine (m_clear w hb).bind (fun h1 v1 w1 f1 e1 => ?_)
  cases s with
  | none =>
    have := m_push w1 f1.bnd 0
    rw [e1] at this
    exact this
  | some b =>
    refine (m_cstrLoop b h1 v1 w1 f1.bnd (hs b rfl)).bind (fun h2 v2 w2 f2 e2 => ?_)
    have := m_push w2 f2.bnd 0
    rw [e2, e1] at this
    simpa [Spec.cchars] using this

theorem m_rangeLoop (buf : List Byte) : ∀ (n i : Nat) (h : Heap Byte) (v : Vec), WF h v → Bnd h → i + n ≤ buf.length →
    MOut h v (view h v ++ ((buf.drop i).take n).map some) (rangeLoop buf n i (h, v)) := by
  intro n
  induction n with
  | zero =>
    intro i h v w hb _
    simpa [rangeLoop, Act.pure_apply] using MOut.ok _ _ w (Frame.refl hb) rfl
  | succ n ih =>
    intro i h v w hb hi
    have hlt : i < buf.length := by omega
    simp only [rangeLoop, List.getElem?_eq_getElem hlt]
    refine (m_push w hb _).bind (fun h' v' w' f e => ?_)
    have := ih (i + 1) h' v' w' f.bnd (by omega)
    rw [e] at this
    rw [List.drop_eq_getElem_cons hlt, List.take_succ_cons, List.map_cons, List.append_cons]
    exact this

theorem m_pop {h : Heap Byte} {v : Vec} {l : List (Option Byte)} {c} (w : WF h v) (hb : Bnd h) (hv : view h v = l ++ [c]) :
    MOut h v l (popBack (h, v)) := by
  have hl := view_length w
  rw [hv] at hl
  simp at hl
  have h1 := wf_size_le w
  have h2 := wf_cap_lt w
  rw [popBack_eq (by omega) (by omega)]
  rcases w with ⟨e1, e2, e3⟩ | ⟨p, b, e1, e2, e3, e4, e5, e6⟩
  · omega
  · refine .ok _ _ (.inr ⟨p, b, e1, e2, e3, by simp only; omega, e5, e6⟩) (size_frame hb rfl) ?_
    simp only [view, e1, e2, Option.getD_some] at hv ⊢
    have : v.size - 1 = l.length := by omega
    rw [this]
    have h3 := congrArg (List.take l.length) hv
    rw [List.take_take, Nat.min_eq_left (by omega), List.take_append_of_le_length (Nat.le_refl _), List.take_length] at h3
    exact h3

theorem m_append {h : Heap Byte} {v r : Vec} {l m : List (Option Byte)} {c} (w : WF h v) (hb : Bnd h)
    (hv : view h v = l ++ [c]) (hs : StableL h v (wholeRange r) m) :
    MOut h v (l ++ m) (append (some r) (h, v)) := by
  have hl := view_length w
  rw [hv] at hl
  simp at hl
  simp only [append]
  rw [Act.bind_ok (show getThis (h, v) = .ok (h, v) v from rfl)]
  have : ¬ v.size < 1 := by omega
  simp only [this, if_false]
  refine (m_pop w hb hv).bind (fun h' v' w' f e => ?_)
  rw [Act.bind_ok (show getThis (h', v') = .ok (h', v') v' from rfl)]
  have := m_assignLoop w' f.bnd (hs.frame hb f)
  rw [e] at this
  exact this

theorem m_ctorPlus {h : Heap Byte} {v a b : Vec} {l m : List (Option Byte)} {c} (w : WF h v) (hb : Bnd h)
    (ha : StableL h v (wholeRange a) (l ++ [c])) (hm : StableL h v (wholeRange b) m) :
    MOut h v (l ++ m) (ctorPlus a b (h, v)) :=
  (m_assign w hb ha).bind (fun _ _ w' f e => m_append w' f.bnd e (hm.frame hb f))

/-! ### Worlds -/

theorem new_world {w w1 : World Byte} {i : Nat} {t : Bool} (I : Inv w) (hi : abs w i = none)
    (hs : step w (.new i) = some (w1, t)) :
    Inv w1 ∧ w1.heap = w.heap ∧ w1.leaked = w.leaked ∧ w1.vec = setVec w.vec i (some init) ∧ t = false := by
  have hi' := abs_none hi
  obtain ⟨w', t', h1, h2, _, _⟩ := step_ok I (.new i) hi
  rw [hs] at h1
  cases h1
  simp only [step, hi'] at hs
  cases hs
  exact ⟨h2, rfl, rfl, rfl, rfl⟩

theorem construct_ok {w : World Byte} {i : Nat} {m : Act (St Byte) Unit} {cs : List (Option Byte)} (I : Inv w)
    (hi : abs w i = none)
    (hm : ∀ w1 : World Byte, Inv w1 → w1.heap = w.heap → w1.vec = setVec w.vec i (some init) →
      MOut w1.heap init cs (m (w1.heap, init))) :
    ∃ w' t, construct w i m = some (w', t) ∧ Inv w' ∧ w'.leaked = w.leaked ∧
      (t = false → abs w' = Vector.Spec.upd (abs w) i (some cs)) ∧ (t = true → abs w' = abs w) := by
  have hi' := abs_none hi
  obtain ⟨w1, t1, hs1, I1, _, _⟩ := step_ok I (.new i) hi
  obtain ⟨_, hh, hlk, hvec, ht⟩ := new_world I hi hs1
  have hv : w1.vec i = some init := by simp [hvec, setVec]
  have ho := hm w1 I1 hh hvec
  have habs1 : ∀ j, j ≠ i → abs w1 j = abs w j := by
    intro j hj; simp [abs, hvec, setVec, hj, hh]
  simp only [construct, hs1, onVec, hv]
  generalize m (w1.heap, init) = o at ho
  cases ho with
  | ok h' v' w' f e =>
    have U := I1.update hv w' f
    refine ⟨_, false, rfl, U.1, hlk, fun _ => ?_, by simp⟩
    rw [U.2, e]
    funext j
    by_cases hj : j = i
    · simp [Vector.Spec.upd, hj]
    · simp [Vector.Spec.upd, hj, habs1 j hj]
  | exc h' v' w' f =>
    have U := I1.update hv w' f
    obtain ⟨w3, t3, hs3, I3, hok, hex⟩ := step_ok U.1 (.del i) ⟨_, by rw [U.2]; simp [Vector.Spec.upd]; rfl⟩
    refine ⟨w3, true, by simp only [hs3], I3, ?_, by simp, fun _ => ?_⟩
    · cases t3 with
      | false => exact (hok rfl).2.trans hlk
      | true => exact ((hex rfl).1).elim
    · cases t3 with
      | true => exact ((hex rfl).1).elim
      | false =>
        have := (hok rfl).1
        simp only [Vector.Spec.Post] at this
        rw [this, U.2]
        funext j
        by_cases hj : j = i
        · simp [Vector.Spec.upd, hj, hi]
        · simp [Vector.Spec.upd, hj, habs1 j hj]

theorem on_ok {w : World Byte} {i : Nat} {v : Vec} {m : Act (St Byte) Unit} {cs : List (Option Byte)} (I : Inv w)
    (hv : w.vec i = some v) (hm : MOut w.heap v cs (m (w.heap, v))) :
    ∃ w' t, onVec w i (fun _ => m) = some (w', t) ∧ Inv w' ∧ w'.leaked = w.leaked ∧
      (t = false → abs w' = Vector.Spec.upd (abs w) i (some cs)) ∧
      (t = true → (∃ l, abs w' = Vector.Spec.upd (abs w) i (some l)) ∧ ∃ s, m (w.heap, v) = .exc s) := by
  simp only [onVec, hv]
  generalize m (w.heap, v) = o at hm
  cases hm with
  | ok h' v' w' f e =>
    have U := I.update hv w' f
    exact ⟨_, false, rfl, U.1, rfl, fun _ => by rw [U.2, e], by simp⟩
  | exc h' v' w' f =>
    have U := I.update hv w' f
    exact ⟨_, true, rfl, U.1, rfl, by simp, fun _ => ⟨⟨_, U.2⟩, _, rfl⟩⟩

/-- Stored form of a string: its characters and the terminator. -/
def enc (l : List Byte) : List (Option Byte) := l.map some ++ [some 0]

/-- The vectors represent the strings `A`. -/
structure SInv (w : World Byte) (A : Spec.Abs) : Prop where
  inv : Inv w
  leak : w.leaked = []
  dead : ∀ i, A i = none → abs w i = none
  any : ∀ i, A i = some none → ∃ l, abs w i = some l
  good : ∀ i l, A i = some (some l) → abs w i = some (enc l)

theorem SInv.live {w A} (S : SInv w A) {i x} (h : A i = some x) : ∃ l, abs w i = some l := by
  cases x with
  | none => exact S.any i h
  | some l => exact ⟨_, S.good i l h⟩

theorem SInv.set {w w' : World Byte} {A : Spec.Abs} (S : SInv w A) (I : Inv w') (hl : w'.leaked = w.leaked) {i : Nat}
    {x : Option (List Byte)} {l : List (Option Byte)} (ha : abs w' = Vector.Spec.upd (abs w) i (some l))
    (hx : ∀ m, x = some m → l = enc m) : SInv w' (Spec.upd A i (some x)) := by
  constructor
  · exact I
  · rw [hl, S.leak]
  · intro j hj
    simp only [Spec.upd] at hj
    split at hj
    · cases hj
    · rename_i hji; rw [ha]; simp [Vector.Spec.upd, hji, S.dead j hj]
  · intro j hj
    simp only [Spec.upd] at hj
    split at hj
    · rename_i hji; exact ⟨l, by rw [ha]; simp [Vector.Spec.upd, hji]⟩
    · rename_i hji; rw [ha]; simpa [Vector.Spec.upd, hji] using S.any j hj
  · intro j m hj
    simp only [Spec.upd] at hj
    split at hj
    · rename_i hji
      cases hj
      rw [ha]; simp [Vector.Spec.upd, hji, hx m rfl]
    · rename_i hji; rw [ha]; simp [Vector.Spec.upd, hji, S.good j m hj]

theorem SInv.same {w w' : World Byte} {A : Spec.Abs} (S : SInv w A) (I : Inv w') (hl : w'.leaked = w.leaked)
    (ha : abs w' = abs w) : SInv w' A :=
  ⟨I, by rw [hl, S.leak], fun i h => by rw [ha]; exact S.dead i h, fun i h => by rw [ha]; exact S.any i h,
    fun i l h => by rw [ha]; exact S.good i l h⟩

theorem upd_some_self {A : Spec.Abs} {i : Nat} {x} (h : A i = x) : Spec.upd A i x = A := by
  funext j; by_cases hj : j = i <;> simp [Spec.upd, hj, h]

/-- Source range of another string, seen by the object under construction or modification. -/
theorem stable_str {w : World Byte} (I : Inv w) {i j : Nat} {v u : Vec} {l : List (Option Byte)} (hij : i ≠ j)
    (hv : w.vec i = some v) (hu : w.vec j = some u) (hl : view w.heap u = l) : StableL w.heap v (wholeRange u) l := by
  have hlen := view_length (I.wf j u hu)
  have := stable_other (lo := 0) (hi := u.size) I hij hv hu (Nat.zero_le _) (by omega)
  rw [List.drop_zero, List.take_of_length_le (by omega), hl] at this
  exact this

theorem sstep_ok {w : World Byte} {A : Spec.Abs} (S : SInv w A) (c : SCmd) (hpre : Spec.Pre A c) :
    ∃ w' t A', sstep w c = some (w', t) ∧ SInv w' A' ∧ (t = false → Spec.Post A c A') ∧ (t = true → Spec.Exc A c A') := by
  have I := S.inv
  cases c with
  | new i =>
    obtain ⟨w', t, h1, h2, h3, h4, h5⟩ := construct_ok (m := ctorDefault) (cs := enc []) I (S.dead i hpre)
      (fun w1 I1 _ hv => m_ctorDefault (.inl ⟨rfl, rfl, rfl⟩) I1.bnd)
    cases t with
    | false => exact ⟨w', false, _, h1, S.set h2 h3 (h4 rfl) (x := some []) (by intro m hm; cases hm; rfl), fun _ => rfl, by simp⟩
    | true => exact ⟨w', true, A, h1, S.same h2 h3 (h5 rfl), by simp, fun _ => rfl⟩
  | fromC i s =>
    obtain ⟨w', t, h1, h2, h3, h4, h5⟩ := construct_ok (m := ctorCStr s) (cs := enc (Spec.cchars s)) I (S.dead i hpre.1)
      (fun w1 I1 _ hv => m_ctorCStr s (.inl ⟨rfl, rfl, rfl⟩) I1.bnd hpre.2)
    cases t with
    | false => exact ⟨w', false, _, h1, S.set h2 h3 (h4 rfl) (x := some _) (by intro m hm; cases hm; rfl), fun _ => rfl, by simp⟩
    | true => exact ⟨w', true, A, h1, S.same h2 h3 (h5 rfl), by simp, fun _ => rfl⟩
  | copy i j =>
    obtain ⟨hi, l, hl⟩ := hpre
    obtain ⟨u, hu, hul⟩ := abs_some (S.good j l hl)
    have hij : i ≠ j := by rintro rfl; rw [hi] at hl; cases hl
    obtain ⟨w', t, h1, h2, h3, h4, h5⟩ := construct_ok (m := ctorCopy u) (cs := enc l) I (S.dead i hi)
      (fun w1 I1 hh hv => m_assign (.inl ⟨rfl, rfl, rfl⟩) I1.bnd
        (stable_str I1 hij (by simp [hv, setVec]) (by simp [hv, setVec, Ne.symm hij, hu]) (by rw [hh]; exact hul)))
    have hs : sstep w (.copy i j) = some (w', t) := by simp only [sstep, hu, h1]
    cases t with
    | false => exact ⟨w', false, _, hs, S.set h2 h3 (h4 rfl) (x := some l) (by intro m hm; cases hm; rfl),
        fun _ => by simp only [Spec.Post, hl], by simp⟩
    | true => exact ⟨w', true, A, hs, S.same h2 h3 (h5 rfl), by simp, fun _ => rfl⟩
  | plus k i j =>
    obtain ⟨hk, ⟨l, hl⟩, m, hm⟩ := hpre
    obtain ⟨u, hu, hul⟩ := abs_some (S.good i l hl)
    obtain ⟨x, hx, hxm⟩ := abs_some (S.good j m hm)
    have hki : k ≠ i := by rintro rfl; rw [hk] at hl; cases hl
    have hkj : k ≠ j := by rintro rfl; rw [hk] at hm; cases hm
    obtain ⟨w', t, h1, h2, h3, h4, h5⟩ := construct_ok (m := ctorPlus u x) (cs := enc (l ++ m)) I (S.dead k hk)
      (fun w1 I1 hh hv => by
        have := m_ctorPlus (v := init) (a := u) (b := x) (m := enc m) (.inl ⟨rfl, rfl, rfl⟩) I1.bnd
          (stable_str I1 hki (by simp [hv, setVec]) (by simp [hv, setVec, Ne.symm hki, hu]) (by rw [hh]; exact hul))
          (stable_str I1 hkj (by simp [hv, setVec]) (by simp [hv, setVec, Ne.symm hkj, hx]) (by rw [hh]; exact hxm))
        simpa [enc] using this)
    have hs : sstep w (.plus k i j) = some (w', t) := by simp only [sstep, hu, hx, h1]
    cases t with
    | false => exact ⟨w', false, _, hs, S.set h2 h3 (h4 rfl) (x := some (l ++ m)) (by intro m hm; cases hm; rfl),
        fun _ => ⟨l, m, hl, hm, rfl⟩, by simp⟩
    | true => exact ⟨w', true, A, hs, S.same h2 h3 (h5 rfl), by simp, fun _ => rfl⟩
  | append i j =>
    obtain ⟨hij, ⟨l, hl⟩, m, hm⟩ := hpre
    obtain ⟨v, hv, hvl⟩ := abs_some (S.good i l hl)
    obtain ⟨x, hx, hxm⟩ := abs_some (S.good j m hm)
    obtain ⟨w', t, h1, h2, h3, h4, h5⟩ := on_ok (m := append (some x)) (cs := enc (l ++ m)) I hv (by
      have := m_append (I.wf i v hv) I.bnd hvl (stable_str I hij hv hx hxm)
      simpa [enc] using this)
    have hs : sstep w (.append i j) = some (w', t) := by simp only [sstep, hx, hij, if_false, h1]
    cases t with
    | false => exact ⟨w', false, _, hs, S.set h2 h3 (h4 rfl) (x := some (l ++ m)) (by intro m hm; cases hm; rfl),
        fun _ => ⟨l, m, hl, hm, rfl⟩, by simp⟩
    | true =>
      obtain ⟨⟨l', hl'⟩, _⟩ := h5 rfl
      exact ⟨w', true, _, hs, S.set h2 h3 hl' (x := none) (by intro m hm; cases hm), by simp, fun _ => rfl⟩
  | assign i j =>
    obtain ⟨⟨y, hy⟩, m, hm⟩ := hpre
    obtain ⟨l0, hl0⟩ := S.live hy
    obtain ⟨w', t, h1, h2, h3, h4⟩ := step_ok I (.opAssign i j) ⟨⟨l0, hl0⟩, _, S.good j m hm⟩
    cases t with
    | false =>
      obtain ⟨hp, hlk⟩ := h3 rfl
      simp only [Vector.Spec.Post, S.good j m hm] at hp
      exact ⟨w', false, _, h1, S.set h2 hlk hp (x := some m) (by intro m hm; cases hm; rfl),
        fun _ => by simp only [Spec.Post, hm], by simp⟩
    | true =>
      obtain ⟨⟨hij, m', n, _, _, hp⟩, hlk⟩ := h4 rfl
      have hlk : w'.leaked = w.leaked := by
        rcases hlk with h | ⟨_, _, h⟩
        · exact h
        · cases h
      exact ⟨w', true, _, h1, S.set h2 hlk hp (x := none) (by intro m hm; cases hm), by simp, fun _ => ⟨hij, rfl⟩⟩
  | clear i =>
    obtain ⟨y, hy⟩ := hpre
    obtain ⟨l0, hl0⟩ := S.live hy
    obtain ⟨v, hv, hvl⟩ := abs_some hl0
    obtain ⟨w', t, h1, h2, h3, h4, h5⟩ := on_ok (m := strClear) (cs := enc []) I hv (m_strClear (I.wf i v hv) I.bnd)
    cases t with
    | false => exact ⟨w', false, _, h1, S.set h2 h3 (h4 rfl) (x := some []) (by intro m hm; cases hm; rfl), fun _ => rfl, by simp⟩
    | true =>
      obtain ⟨⟨l', hl'⟩, s, hs⟩ := h5 rfl
      have hy0 : y = none := by
        cases y with
        | none => rfl
        | some l =>
          exfalso
          have hg := S.good i l hy
          rw [hl0] at hg
          cases hg
          have h1 := view_length (I.wf i v hv)
          rw [hvl] at h1
          have h2 := wf_size_le (I.wf i v hv)
          simp [enc] at h1
          exact strClear_noexc (I.wf i v hv) (by omega) hs
      subst hy0
      have := S.set h2 h3 hl' (x := none) (by intro m hm; cases hm)
      rw [upd_some_self hy] at this
      exact ⟨w', true, A, h1, this, by simp, fun _ => ⟨hy, rfl⟩⟩
  | write i k c =>
    obtain ⟨l, hl, hk⟩ := hpre
    obtain ⟨v, hv, hvl⟩ := abs_some (S.good i l hl)
    have hlen := view_length (I.wf i v hv)
    rw [hvl] at hlen
    simp [enc] at hlen
    obtain ⟨h', g1, g2, g3, g4⟩ := write_ok c (I.wf i v hv) I.bnd (k := k) (by omega)
    have U := I.update hv g2 g3
    refine ⟨_, false, _, by simp only [sstep, onVec, hv, g1], S.set U.1 rfl U.2 (x := some (l.set k c)) ?_, fun _ => ⟨l, hl, rfl⟩, by simp⟩
    intro m hm
    cases hm
    rw [g4, hvl]
    simp [enc, List.set_append_left, hk, List.map_set]
  | erase i k =>
    obtain ⟨l, hl, hk⟩ := hpre
    obtain ⟨v, hv, hvl⟩ := abs_some (S.good i l hl)
    have hlen := view_length (I.wf i v hv)
    rw [hvl] at hlen
    simp [enc] at hlen
    obtain ⟨h', g1, g2, g3, g4⟩ := erase_ok (I.wf i v hv) I.bnd (k := k) (by omega)
    have U := I.update hv g2 g3
    refine ⟨_, false, _, by simp only [sstep, onVec, hv, g1], S.set U.1 rfl U.2 (x := some (l.eraseIdx k)) ?_, fun _ => ⟨l, hl, rfl⟩, by simp⟩
    intro m hm
    cases hm
    rw [g4, hvl]
    simp only [enc]
    rw [List.eraseIdx_append_of_lt_length (by simpa using hk)]
    simp [List.eraseIdx_eq_take_drop_succ]
  | del i =>
    obtain ⟨y, hy⟩ := hpre
    obtain ⟨l0, hl0⟩ := S.live hy
    obtain ⟨w', t, h1, h2, h3, h4⟩ := step_ok I (.del i) ⟨l0, hl0⟩
    cases t with
    | true => exact ((h4 rfl).1).elim
    | false =>
      obtain ⟨hp, hlk⟩ := h3 rfl
      simp only [Vector.Spec.Post] at hp
      refine ⟨w', false, Spec.upd A i none, h1, ⟨h2, by rw [hlk, S.leak], ?_, ?_, ?_⟩, fun _ => rfl, by simp⟩
      · intro j hj
        rw [hp]
        by_cases hji : j = i
        · simp [Vector.Spec.upd, hji]
        · simp [Spec.upd, hji] at hj; simp [Vector.Spec.upd, hji, S.dead j hj]
      · intro j hj
        rw [hp]
        by_cases hji : j = i
        · simp [Spec.upd, hji] at hj
        · simp [Spec.upd, hji] at hj; simpa [Vector.Spec.upd, hji] using S.any j hj
      · intro j m hj
        rw [hp]
        by_cases hji : j = i
        · simp [Spec.upd, hji] at hj
        · simp [Spec.upd, hji] at hj; simp [Vector.Spec.upd, hji, S.good j m hj]

end Nanostl.Str
