import Verif.Map.World
import Verif.Map.Prio

/-! Whole client programs over maps, iteration, and the generator's values. -/

namespace Nanostl.Map

open Tree Spec

variable {K V : Type} [LinearOrder K]

/-- Which maps are alive. -/
def liveF (T : Nat → Option (Tree K V)) : Nat → Bool := fun i => (T i).isSome

theorem live_of_post {dflt : V} {A A' : Abs K V} {c : Cmd K V} {r : Res V} (h : Post dflt A c r A') (cs : List (Cmd K V))
    (hl : Legal (fun i => (A i).isSome) (c :: cs)) : Legal (fun i => (A' i).isSome) cs := by
  have same : ∀ {i f g}, A i = some f → (fun j => (upd A i (some g) j).isSome) = fun j => (A j).isSome := by
    intro i f g h; funext j; simp only [upd]; split
    · rename_i hj; rw [hj, h]; rfl
    · rfl
  cases c with
  | new i =>
    obtain ⟨_, rfl⟩ := h
    convert hl.2 using 1
    funext j; simp only [upd]; split <;> rfl
  | insert i k v =>
    obtain ⟨f, hf, h⟩ := h
    split at h
    · obtain ⟨_, rfl⟩ := h; exact hl.2
    · rcases h with ⟨_, rfl⟩ | ⟨_, rfl⟩
      · exact hl.2
      · rw [same hf]; exact hl.2
  | set i k v =>
    obtain ⟨f, hf, h⟩ := h
    rcases h with ⟨_, _, rfl⟩ | ⟨_, rfl⟩
    · exact hl.2
    · rw [same hf]; exact hl.2
  | get i k =>
    obtain ⟨f, hf, h⟩ := h
    split at h
    · obtain ⟨_, rfl⟩ := h; exact hl.2
    · rcases h with ⟨_, rfl⟩ | ⟨_, rfl⟩
      · exact hl.2
      · rw [same hf]; exact hl.2
  | copy i j => exact absurd h (by simp [Post])
  | del i =>
    obtain ⟨_, rfl⟩ := h
    convert hl.2 using 1
    funext j; simp only [upd]; split <;> rfl

omit [LinearOrder K] in
theorem pre_of_legal {A : Abs K V} {c : Cmd K V} {cs : List (Cmd K V)} (hl : Legal (fun i => (A i).isSome) (c :: cs)) : Pre A c := by
  cases c with
  | new i =>
    have := hl.1
    simpa [Pre] using this
  | copy i j => exact hl.elim
  | insert i k v => have := hl.1; simp only [Pre]; intro h; simp [h] at this
  | set i k v => have := hl.1; simp only [Pre]; intro h; simp [h] at this
  | get i k => have := hl.1; simp only [Pre]; intro h; simp [h] at this
  | del i => have := hl.1; simp only [Pre]; intro h; simp [h] at this

theorem run_ok (dflt : V) : ∀ (cs : List (Cmd K V)) {w : World K V} {T : Nat → Option (Tree K V)}, WInv w T → Drawn w.m T →
    Legal (fun i => (absF T i).isSome) cs →
    ∃ w' rs T', run dflt w cs = some (w', rs) ∧ WInv w' T' ∧ Run dflt (absF T) cs rs (absF T') ∧ Drawn w'.m T' ∧ w'.m.rand = w.m.rand
  | [], w, T, S, hd, _ => ⟨w, [], T, rfl, S, .nil _, hd, rfl⟩
  | c :: cs, w, T, S, hd, hl => by
    obtain ⟨w1, r, T1, h1, S1, p1, d1, e1⟩ := step_ok S dflt c (pre_of_legal hl)
    obtain ⟨w2, rs, T2, h2, S2, p2, d2, e2⟩ := run_ok dflt cs S1 (d1 hd) (live_of_post p1 cs hl)
    exact ⟨w2, r :: rs, T2, by simp only [run, h1, h2], S2, .cons p1 p2, d2, e2.trans e1⟩

theorem start_inv (fails : Nat → Bool) (rand : Nat → Nat) : WInv (World.start fails rand : World K V) (fun _ => none) := by
  constructor <;> simp [World.start]

omit [LinearOrder K] in
theorem start_drawn (fails : Nat → Bool) (rand : Nat → Nat) : Drawn (World.start fails rand : World K V).m (fun _ => none) :=
  ⟨fun a => a, by simp, by simp⟩

theorem run_start (dflt : V) (fails : Nat → Bool) (rand : Nat → Nat) (cs : List (Cmd K V)) (hl : Legal (fun _ => false) cs) :
    ∃ w rs T, run dflt (World.start fails rand) cs = some (w, rs) ∧ WInv w T ∧ Run dflt (fun _ => none) cs rs (absF T) ∧ Drawn w.m T ∧
      w.m.rand = rand :=
  run_ok dflt cs (start_inv fails rand) (start_drawn fails rand) hl

/-! ### Iteration -/

theorem find_next {es : List (Ent K V)} (hb : es.Pairwise (fun x y => x.key < y.key)) {j : Nat} {e : Ent K V} (h : es[j]? = some e) :
    es.find? (fun x => decide (e.key < x.key)) = es[j + 1]? := by
  induction es generalizing j with
  | nil => simp at h
  | cons x xs ih =>
    rw [List.pairwise_cons] at hb
    rw [List.find?_cons]
    cases j with
    | zero =>
      simp only [List.getElem?_cons_zero, Option.some.injEq] at h
      subst h
      simp only [lt_irrefl, decide_false, List.getElem?_cons_succ]
      cases xs with
      | nil => rfl
      | cons y ys =>
        have := hb.1 y (by simp)
        simp [this]
    | succ j =>
      simp only [List.getElem?_cons_succ] at h ⊢
      have hx := hb.1 e (List.mem_of_getElem? h)
      simp only [not_lt_of_gt hx, decide_false]
      exact ih hb.2 h

theorem incr_ok {w : World K V} {T : Nat → Option (Tree K V)} (S : WInv w T) {i : Nat} {t : Tree K V} (hT : T i = some t)
    {j : Nat} {e : Ent K V} (he : t.ents[j]? = some e) :
    incr t.ptr (some e.addr) w.m = .ok w.m ((t.ents[j + 1]?).map (·.addr)) := by
  obtain ⟨n, n1, n2, _, _⟩ := rep_node (S.rep i t hT) (List.mem_of_getElem? he)
  refine (Act.bind_ok (deref_ok n1)).trans ?_
  show upperP (fuel w.m) t.ptr n.key w.m = _
  rw [upperP_ok _ t _ _ (S.rep i t hT) (S.depth hT), ub_eq (S.bst i t hT), n2, find_next (S.bst i t hT) he]

/-- The loop `for (; it != end; ++it) visit(*it);` starting at `p`, cut off after `n` rounds with undefined result. The test against
the end is `isEnd` (nanomap.h:105-111, 115). -/
def walk (root : Option Nat) : Nat → Option Nat → Act (Mem K V) (List (K × V))
  | 0, _ => Act.ub
  | _ + 1, none => pure []
  | f + 1, some a => do
    let n ← deref (some a)
    let q ← incr root (some a)
    let l ← walk root f q
    pure ((n.key, n.val) :: l)

theorem walk_ok {w : World K V} {T : Nat → Option (Tree K V)} (S : WInv w T) {i : Nat} {t : Tree K V} (hT : T i = some t) :
    ∀ (n j f : Nat), t.ents.length - j = n → n < f →
    walk t.ptr f ((t.ents[j]?).map (·.addr)) w.m = .ok w.m ((t.ents.drop j).map fun e => (e.key, e.val))
  | 0, j, f, h, hf => by
    obtain ⟨f, rfl⟩ : ∃ g, f = g + 1 := ⟨f - 1, by omega⟩
    rw [List.getElem?_eq_none (by omega), List.drop_eq_nil_of_le (by omega)]
    rfl
  | n + 1, j, f, h, hf => by
    obtain ⟨f, rfl⟩ : ∃ g, f = g + 1 := ⟨f - 1, by omega⟩
    have hj : j < t.ents.length := by omega
    rw [List.getElem?_eq_getElem hj, List.drop_eq_getElem_cons hj]
    have he : t.ents[j]? = some t.ents[j] := List.getElem?_eq_getElem hj
    obtain ⟨m, n1, n2, n3, _⟩ := rep_node (S.rep i t hT) (List.getElem_mem hj)
    simp only [Option.map_some, walk]
    rw [Act.bind_ok (deref_ok n1), Act.bind_ok (incr_ok S hT he),
      Act.bind_ok (walk_ok S hT n (j + 1) f (by omega) (by omega))]
    simp only [n2, n3, Act.pure_apply, List.map_cons]

/-- The entries from a tree's root on are those with keys not below the root's. -/
theorem root_index {e : Ent K V} {l r : Tree K V} (hb : (node e l r).Bst) :
    (node e l r).ents[l.ents.length]? = some e ∧
    (node e l r).ents.drop l.ents.length = (node e l r).ents.filter (fun x => decide (e.key ≤ x.key)) := by
  obtain ⟨_, _, b3, b4⟩ := bst_node.mp hb
  simp only [ents]
  refine ⟨by simp, ?_⟩
  rw [List.drop_left, List.filter_append, List.filter_cons]
  have h1 : l.ents.filter (fun x => decide (e.key ≤ x.key)) = [] := by
    rw [List.filter_eq_nil_iff]; intro x hx; simp only [decide_eq_true_eq, not_le]; exact b3 x hx
  have h2 : r.ents.filter (fun x => decide (e.key ≤ x.key)) = r.ents := by
    rw [List.filter_eq_self]; intro x hx; simp only [decide_eq_true_eq]; exact le_of_lt (b4 x hx)
  simp [h1, h2]

/-! ### The generator -/

namespace Prio

theorem seed_periodic (n : Nat) : xorshift^[n] seed = xorshift^[n % (2 ^ 32 - 1)] seed := by
  rw [← minimal_period]; exact (Function.iterate_mod_minimalPeriod_eq).symm

theorem stream_pos (i : Nat) : 0 < prioStream i ∧ prioStream i < 2 ^ 32 := by
  refine ⟨Nat.pos_of_ne_zero fun h => ?_, iter_lt _ (by decide)⟩
  -- then the orbit would stay at zero and never come back to the seed
  have h2 : xorshift^[(2 ^ 32 - 1) * (i + 1)] seed = seed := by
    have := seed_periodic ((2 ^ 32 - 1) * (i + 1))
    rwa [Nat.mul_mod_right] at this
  obtain ⟨d, hd⟩ : ∃ d, (2 ^ 32 - 1) * (i + 1) = d + (i + 1) := ⟨(2 ^ 32 - 2) * (i + 1), by omega⟩
  rw [hd, Function.iterate_add_apply] at h2
  unfold prioStream at h
  rw [h, iter_zero] at h2
  exact absurd h2 (by decide)

theorem stream_inj {i j : Nat} (h : i < j) (hj : j - i < 2 ^ 32 - 1) : prioStream i ≠ prioStream j := by
  intro he
  unfold prioStream at he
  rw [seed_periodic (i + 1), seed_periodic (j + 1)] at he
  have := Function.iterate_injOn_Iio_minimalPeriod (f := xorshift) (x := seed) (by
      rw [minimal_period]; exact Nat.mod_lt _ (by decide)) (by rw [minimal_period]; exact Nat.mod_lt _ (by decide)) he
  omega

theorem stream_surj {x : Nat} (h0 : 0 < x) (h : x < 2 ^ 32) : ∃ i < 2 ^ 32 - 1, prioStream i = x := by
  have himg : (Finset.range (2 ^ 32 - 1)).image prioStream = Finset.Ico 1 (2 ^ 32) := by
    refine Finset.eq_of_subset_of_card_le ?_ ?_
    · intro y hy
      obtain ⟨i, _, rfl⟩ := Finset.mem_image.mp hy
      exact Finset.mem_Ico.mpr (stream_pos i)
    · rw [Finset.card_image_of_injOn, Nat.card_Ico, Finset.card_range]
      intro i hi j hj he
      simp only [Finset.coe_range, Set.mem_Iio] at hi hj
      rcases Nat.lt_trichotomy i j with hlt | heq | hgt
      · exact absurd he (stream_inj hlt (by omega))
      · exact heq
      · exact absurd he.symm (stream_inj hgt (by omega))
  have hx : x ∈ (Finset.range (2 ^ 32 - 1)).image prioStream := by rw [himg]; exact Finset.mem_Ico.mpr ⟨h0, h⟩
  obtain ⟨i, hi, he⟩ := Finset.mem_image.mp hx
  exact ⟨i, Finset.mem_range.mp hi, he⟩

end Prio

end Nanostl.Map
