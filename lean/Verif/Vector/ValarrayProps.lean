import Verif.Vector.Valarray
import Verif.Vector.Props

/-! C101: construction of a `valarray` from a size, and `sin`. -/

namespace Nanostl.Vector

variable {α : Type}

theorem wf_init (h : Heap α) : WF h init := .inl ⟨rfl, rfl, rfl⟩

theorem own_fresh {h h' : Heap α} {v : Vec} (fr : Frame h init h' v) :
    (∀ q, q < h.next → h'.mem q = h.mem q) ∧ ∀ q, v.elements = some q → h.next ≤ q := by
  constructor
  · intro q hq
    exact fr.keep q (by simp [init]) hq
  · intro q hq
    rcases fr.newptr with e | ⟨p, e, hp⟩
    · rw [hq] at e; cases e
    · rw [hq] at e; cases e; exact hp

/-- What `valarray(n)` gives. -/
theorem sizeCtor_spec (h : Heap α) (hb : Bnd h) (v0 : Vec) (n : Nat) :
    (∃ h' v, sizeCtor n (h, v0) = .ok (h', v) () ∧ WF h' v ∧ Frame h init h' v ∧ view h' v = List.replicate n h.fresh ∧ v.size = n) ∨
    (∃ h', sizeCtor n (h, v0) = .exc (h', init) ∧ h'.mem = h.mem ∧ (2 ^ 63 ≤ n ∨ h.fails h.calls n = true)) := by
  have e : sizeCtor n (h, v0) = resize n (h, init) := rfl
  rw [e]
  by_cases h0 : n = 0
  · subst h0
    rw [resize_zero]
    exact .inl ⟨h, init, rfl, wf_init h, Frame.refl hb, rfl, rfl⟩
  · have hc : (init : Vec).capacity < n := by simp [init]; omega
    have hg : grown init n = n := by simp [grown, init]
    rw [resize_grow (wf_init h) hb hc, hg]
    by_cases hf : (decide (2 ^ 63 ≤ n) || h.fails h.calls n) = true
    · rw [if_pos hf]
      refine .inr ⟨_, rfl, rfl, ?_⟩
      simpa using hf
    · rw [if_neg hf]
      simp only [Bool.or_eq_true, decide_eq_true_eq, not_or, Nat.not_le] at hf
      have w := grown_wf (wf_init h) hc (by rw [hg]; exact hf.1)
      have f := grown_frame (v := init) (n := n) hb
      have vw := grown_view (wf_init h) hc
      rw [hg] at w f vw
      exact .inl ⟨_, _, rfl, w, f, by rw [vw]; simp [view, init], rfl⟩

/-- C101 (part): `valarray(n)`, for every n and every allocator, has n elements in memory of its own, all as `new T[n]` left them, and touches nothing
else; or it throws, if the allocation fails, and then holds no memory. Missing: the elements are zero, see `c101_indeterminate`. -/
theorem c101_size_partial (h : Heap α) (hb : Bnd h) (v0 : Vec) (n : Nat) :
    (∃ h' v, sizeCtor n (h, v0) = .ok (h', v) () ∧ v.size = n ∧ WF h' v ∧ view h' v = List.replicate n h.fresh ∧
      (∀ q, q < h.next → h'.mem q = h.mem q) ∧ (∀ q, v.elements = some q → h.next ≤ q) ∧
      ∀ a, h.fresh = some a → ∀ k, k < n → read k (h', v) = .ok (h', v) a) ∨
    (∃ h', sizeCtor n (h, v0) = .exc (h', init) ∧ h'.mem = h.mem ∧ (2 ^ 63 ≤ n ∨ h.fails h.calls n = true)) := by
  rcases sizeCtor_spec h hb v0 n with ⟨h', v, e, w, f, vw, sz⟩ | hx
  · refine .inl ⟨h', v, e, sz, w, vw, (own_fresh f).1, (own_fresh f).2, ?_⟩
    intro a ha k hk
    rcases w with ⟨_, _, e3⟩ | ⟨p, b, e1, e2, e3, e4, _, _⟩
    · omega
    · have hkb : k < b.length := by omega
      have hbk : b.getD k none = some a := by
        have h2 : (view h' v)[k]? = some (some a) := by rw [vw, ha]; simp [hk]
        simp only [view, e1, e2, Option.getD_some, List.getElem?_take] at h2
        rw [if_pos (by omega)] at h2
        simp [List.getD, h2]
      simp only [read]
      rw [Act.bind_ok (show getThis (h', v) = .ok (h', v) v from rfl), e1, Act.bind_ok (load_ok e2 hkb)]
      simp only [hbk]; rfl
  · exact .inr hx

/-- C101 fails: `std::valarray<T>(n)` has n zeros; here reading an element of a scalar type is undefined. -/
theorem c101_indeterminate (h : Heap α) (hb : Bnd h) (hf : h.fresh = none) (v0 : Vec) (n k : Nat) (hk : k < n) (h' : Heap α) (v : Vec)
    (e : sizeCtor n (h, v0) = .ok (h', v) ()) : read k (h', v) = .ub := by
  rcases sizeCtor_spec h hb v0 n with ⟨h2, v2, e', w, f, vw, sz⟩ | ⟨h2, e', _⟩
  · rw [e] at e'; cases e'
    rcases w with ⟨_, _, e3⟩ | ⟨p, b, e1, e2, e3, e4, _, _⟩
    · omega
    · have hkb : k < b.length := by omega
      have hbk : b.getD k none = none := by
        have h2 : (view h' v)[k]? = some none := by rw [vw, hf]; simp [hk]
        simp only [view, e1, e2, Option.getD_some, List.getElem?_take] at h2
        rw [if_pos (by omega)] at h2
        simp [List.getD, h2]
      simp only [read]
      rw [Act.bind_ok (show getThis (h', v) = .ok (h', v) v from rfl), e1, Act.bind_ok (load_ok e2 hkb)]
      simp only [hbk]; rfl
  · rw [e] at e'; cases e'

theorem mapLoop_ok (f : α → α) {va v : Vec} {p q : Nat} (hp : va.elements = some p) (hq : v.elements = some q) (hne : p ≠ q) (l : List α) :
    ∀ (n i : Nat) (h : Heap α) (b bd : List (Option α)), h.mem p = some b → h.mem q = some bd → (∀ k, k < i + n → b.getD k none = l[k]?) →
      i + n ≤ l.length → i + n ≤ b.length → i + n ≤ bd.length →
      ∃ bd', mapLoop f va n i (h, v) = .ok ({ h with mem := setMem h.mem q (some bd') }, v) () ∧ bd'.length = bd.length ∧
        ∀ k, bd'[k]? = if i ≤ k ∧ k < i + n then (l[k]?).map (fun a => some (f a)) else bd[k]? := by
  intro n
  induction n with
  | zero =>
    intro i h b bd _ hd _ _ _ _
    refine ⟨bd, ?_, rfl, ?_⟩
    · have : setMem h.mem q (some bd) = h.mem := by
        funext x
        unfold setMem
        split
        · rename_i e; rw [e, hd]
        · rfl
      rw [this]; rfl
    · intro k
      rw [if_neg (by omega)]
  | succ n ih =>
    intro i h b bd hs hd hl h1 h2 h3
    have hi : b.getD i none = some (l[i]'(by omega)) := by rw [hl i (by omega)]; simp [List.getElem?_eq_getElem (show i < l.length by omega)]
    obtain ⟨bd', e, len, hk⟩ := ih (i + 1) { h with mem := setMem h.mem q (some (bd.set i (some (f (l[i]'(by omega)))))) } b
      (bd.set i (some (f (l[i]'(by omega))))) (by simp [setMem, hne, hs]) (by simp [setMem]) (fun k hk => hl k (by omega)) (by omega) (by omega)
      (by simp; omega)
    refine ⟨bd', ?_, by simpa using len, ?_⟩
    · unfold mapLoop
      rw [Act.bind_ok (show load va.elements i (h, v) = .ok (h, v) (b.getD i none) from hp ▸ load_ok hs (by omega)), hi]
      simp only
      rw [Act.bind_ok (show getThis (h, v) = .ok (h, v) v from rfl), hq, Act.bind_ok (store_ok _ hd (by omega)), e]
      simp only [setMem_setMem]
    · intro k
      rw [hk k]
      by_cases hki : k = i
      · subst hki
        rw [if_neg (by omega), if_pos (by omega), List.getElem?_set_self (by omega), List.getElem?_eq_getElem (show k < l.length by omega)]
        rfl
      · rw [List.getElem?_set_ne (Ne.symm hki)]
        by_cases hr : i + 1 ≤ k ∧ k < i + 1 + n
        · rw [if_pos hr, if_pos (by omega)]
        · rw [if_neg hr, if_neg (by omega)]

/-- C101: `sin(va)`, for every valarray of any length whose elements are all set, gives a new valarray with the sine of element k at position k, in
memory of its own; `va` and all other memory stay as they are. If the allocation fails it throws and leaves no memory behind. -/
theorem c101_sin (f : α → α) (h : Heap α) (hb : Bnd h) (va v0 : Vec) (wa : WF h va) (l : List α) (hl : view h va = l.map some) :
    (∃ h' v, mapVal f va (h, v0) = .ok (h', v) () ∧ WF h' v ∧ view h' v = l.map (fun a => some (f a)) ∧ view h' va = l.map some ∧
      (∀ q, q < h.next → h'.mem q = h.mem q) ∧ (∀ q, v.elements = some q → h.next ≤ q)) ∨
    (∃ h', mapVal f va (h, v0) = .exc (h', init) ∧ h'.mem = h.mem ∧ h.fails h.calls l.length = true) := by
  have hlen : va.size = l.length := by rw [← view_length wa, hl]; simp
  have hcap := wf_cap_lt wa
  have hsz := wf_size_le wa
  have e0 : mapVal f va (h, v0) = (sizeCtor va.size >>= fun _ => mapLoop f va va.size 0) (h, v0) := by
    unfold mapVal sizeCtor
    rfl
  rw [e0]
  rcases sizeCtor_spec h hb v0 va.size with ⟨h1, v, e, w, fr, vw, sz⟩ | ⟨h1, e, hm, hx⟩
  · rw [Act.bind_ok e]
    left
    rcases wa with ⟨a1, a2, a3⟩ | ⟨p, b, a1, a2, a3, a4, a5, a6⟩
    · rw [a3]
      have : l = [] := List.length_eq_zero_iff.mp (by omega)
      subst this
      refine ⟨h1, v, rfl, w, ?_, ?_, (own_fresh fr).1, (own_fresh fr).2⟩
      · rw [vw, a3]; rfl
      · simp [view, a1]
    · by_cases hz : va.size = 0
      · rw [hz]
        have : l = [] := List.length_eq_zero_iff.mp (by omega)
        subst this
        refine ⟨h1, v, rfl, w, ?_, ?_, (own_fresh fr).1, (own_fresh fr).2⟩
        · rw [vw, hz]; rfl
        · simp [view, a1, hz]
      · rcases w with ⟨_, _, w3⟩ | ⟨q, bd, w1, w2, w3, w4, w5, w6⟩
        · omega
        · have hp : p < h.next := hb p (by simp [a2])
          have hq := (own_fresh fr).2 q w1
          have hpm : h1.mem p = some b := by rw [(own_fresh fr).1 p hp, a2]
          obtain ⟨bd', e', len, hk⟩ := mapLoop_ok f a1 w1 (by omega) l va.size 0 h1 b bd hpm w2 (by
            intro k hk
            have : (view h va)[k]? = (l.map some)[k]? := by rw [hl]
            simp only [view, a1, a2, Option.getD_some, List.getElem?_take] at this
            rw [if_pos (by omega)] at this
            have hkl : k < l.length := by omega
            simp only [List.getElem?_map, List.getElem?_eq_getElem hkl, Option.map_some] at this
            simp [List.getD, this, List.getElem?_eq_getElem hkl]) (by omega) (by omega) (by omega)
          have hfr : ∀ x, x < h.next → setMem h1.mem q (some bd') x = h.mem x := by
            intro x hx
            rw [setMem_other _ _ (by omega), (own_fresh fr).1 x hx]
          refine ⟨_, v, e', .inr ⟨q, bd', w1, by simp [setMem], by omega, w4, w5, w6⟩, ?_, ?_, hfr, (own_fresh fr).2⟩
          · simp only [view, w1]
            rw [show setMem h1.mem q (some bd') q = some bd' by simp [setMem]]
            simp only [Option.getD_some]
            apply List.ext_getElem?
            intro k
            rw [List.getElem?_take, hk k, sz]
            by_cases hk' : k < va.size
            · rw [if_pos hk', if_pos (by omega)]
              simp [List.getElem?_map]
            · rw [if_neg hk', List.getElem?_eq_none (by simp; omega)]
          · rw [← hl]
            simp only [view, a1]
            rw [hfr p hp]
  · rw [Act.bind_exc e]
    refine .inr ⟨h1, rfl, hm, ?_⟩
    rw [← hlen]
    rcases hx with hx | hx
    · omega
    · exact hx

/-! ### Hypotheses are met -/

/-- A heap with one valarray of three elements and room for four. -/
def demoHeap : Heap Nat := { mem := fun q => if q = 0 then some [some 5, some 6, some 7, none] else none, next := 1, calls := 0, fails := fun _ _ => false, fresh := none }
def demoVal : Vec := { elements := some 0, capacity := 4, size := 3 }

example : Bnd demoHeap ∧ WF demoHeap demoVal ∧ view demoHeap demoVal = [5, 6, 7].map some := by
  refine ⟨?_, .inr ⟨0, _, rfl, rfl, rfl, by decide, by decide, by decide⟩, rfl⟩
  intro q hq
  simp only [demoHeap] at hq ⊢
  split at hq
  · omega
  · exact absurd rfl hq
example : (match mapVal (· + 100) demoVal (demoHeap, init) with
    | .ok (h, v) _ => view h v
    | _ => []) = [some 105, some 106, some 107] := rfl
example : (match sizeCtor 2 (demoHeap, demoVal) with
    | .ok (h, v) _ => (view h v, v.size)
    | _ => ([], 0)) = ([none, none], 2) := rfl

end Nanostl.Vector
