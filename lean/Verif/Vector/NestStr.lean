import Verif.Vector.NestVec

/-! Helper lemmas for C131 and C133: strings, whose member is a vector of scalars. -/

namespace Nanostl.Vector.Nest

variable {T β : Type}

/-- A value under another name. -/
def mapO {β γ : Type} (f : β → γ) (O : Owns T β) : Owns T γ := fun m c t F => ∃ a, t = f a ∧ O m c a F

theorem good_map {β γ : Type} {τ : Bool} {E : Ops T} {O : Owns T β} {z : β} (f : β → γ) (G : Good τ E O z) : Good τ E (mapO f O) (f z) where
  frame := by rintro m m' c v F ⟨a, rfl, h⟩ hm; exact ⟨a, rfl, G.frame _ _ _ _ _ h hm⟩
  live := by rintro m c v F ⟨a, rfl, h⟩; exact G.live _ _ _ _ h
  zero := by
    obtain ⟨v, h⟩ := G.zero
    exact ⟨f v, fun m => ⟨v, rfl, h m⟩⟩
  init := fun w h => (G.init w h).mono fun _ _ ⟨c, v, F, hA, ho, hv⟩ => ⟨c, f v, F, hA, ⟨v, rfl, ho⟩, fun hb => by rw [hv hb]⟩
  assign := by
    rintro s l l' c c' v v' F F' w ⟨h1, ⟨a, rfl, h2⟩, h3⟩ ⟨h1', ⟨a', rfl, h2'⟩, h3'⟩ ap
    refine (G.assign w ⟨h1, h2, h3⟩ ⟨h1', h2', h3'⟩ ap).mono ?_
    rintro b s' ⟨c2, v2, F2, hA, ho, hv⟩
    exact ⟨c2, f v2, F2, hA, ⟨v2, rfl, ho⟩, fun hb => by rw [hv.1 hb], hv.2⟩
  del := by
    rintro s l c v F w ⟨h1, ⟨a, rfl, h2⟩, h3⟩
    exact G.del w ⟨h1, h2, h3⟩

/-- Scalars under another name. -/
abbrev chars (f : T → β) : Owns T β := mapO f ownScalar

/-- `v[i] = a`. -/
theorem setElem_spec (f : T → β) {s : Mem T} {l : Loc} {c : Cell T} {vs : List β} {F : Fp} (w : Wf s) (h : Has (ownVec (chars f)) s l c vs F) {i : Nat} (hi : i < vs.length) (a : T) :
    ∃ s', (do let v ← members l; let d ← elem v.1 i; write d (.val a) : Act (Mem T) Unit) s = .ok s' () ∧ Put true (ownVec (chars f)) s l F (fun _ v => v = vs.set i (f a)) true s' := by
  obtain ⟨p, cap, rfl, hl, hp⟩ := ownVec_vec h.own
  cases p with
  | none => have := hp rfl; omega
  | some p =>
    obtain ⟨cells, us, fs, R, rfl, h2, h3, rfl⟩ := h.own
    have hil : i < cells.length := by omega
    have H := R.has hil
    have G := good_map f (good_scalar a)
    obtain ⟨y, e1, e2, e3⟩ := H.own
    obtain ⟨s', e, hA, -⟩ := write_spec w H.cell (.val a) (fs i)
    have ho : chars f s'.blocks (.val a) (f a) (fs i) := ⟨a, rfl, rfl, e3⟩
    obtain ⟨R2, S2, -⟩ := R.put (fun _ => G.frame) (fun _ => G.live) w hil hA ho
    refine ⟨s', by rw [Act.bind_ok (members_ok h.cell)]; exact e, _, (List.range vs.length).map (upd us i (f a)), _, S2.at w h.cell h.out, ⟨_, _, _, R2, by simp, h2, rfl, rfl⟩, ?_⟩
    apply List.ext_getElem (by simp)
    intro j h4 h5
    have hj : j < vs.length := by simpa using h4
    have : vs[j] = us j := by
      have := congrArg (·[j]?) h3
      simp only [List.getElem?_map, List.getElem?_range hj, List.getElem?_eq_getElem hj] at this
      exact Option.some.inj this
    rw [List.getElem_set]
    simp only [List.getElem_map, List.getElem_range]
    by_cases hij : i = j
    · subst hij; rw [if_pos rfl, upd_same]
    · rw [if_neg hij, upd_ne (Ne.symm hij), this]

theorem At.out {b : Bool} {s s' : Mem T} {l : Loc} {c c0 : Cell T} {F F2 : Fp} (hA : At b s s' l c F F2) (w : Wf s) (hc : cellAt s.blocks l = some c0) (h : ¬ F l.1) : ¬ F2 l.1 := by
  intro h2
  rcases hA.step.old _ h2 with h1 | h1
  · exact h h1
  · have := w _ (cellAt_lt hc); omega

/-- `data_.resize(1); data_[0] = '\\0';` on no characters. -/
theorem strInit_spec (f : T → β) (nul : T) {s : Mem T} {l : Loc} {c : Cell T} {F : Fp} (w : Wf s) (h : Has (ownVec (chars f)) s l c [] F) :
    Does (strInit nul l) s (Put true (ownVec (chars f)) s l F fun b v => if b then v = [f nul] else v = []) := by
  have G := good_map f (good_scalar nul)
  refine (resize_spec G w h 1).bind ?_ ?_
  · rintro s1 ⟨c1, v1, F1, hA, ho, hv⟩
    simp only [if_true, Resized, if_neg (Nat.succ_ne_zero 0)] at hv
    have H1 : Has (ownVec (chars f)) s1 l c1 v1 F1 := ⟨hA.get h.cell, ho, hA.out w h.cell h.out⟩
    obtain ⟨s2, e2, c2, v2, F2, hA2, ho2, hv2⟩ := setElem_spec f hA.step.wf H1 (i := 0) (by omega) nul
    refine .ok e2 ⟨c2, v2, F2, hA.trans hA2 fun _ => rfl, ho2, ?_⟩
    obtain ⟨x, rfl⟩ := List.length_eq_one_iff.mp hv.1
    simpa using hv2
  · rintro s1 ⟨c1, v1, F1, hA, ho, hv⟩
    exact ⟨c1, v1, F1, hA, ho, hv⟩

/-- `basic_string()`: if there is no memory, nothing has changed. -/
theorem strNew_spec (f : T → β) (nul : T) {s : Mem T} {l : Loc} (w : Wf s) (hc : cellAt s.blocks l = some (.vec .none 0 0)) :
    Does (strInit nul l) s fun b s' => ∃ c v F, At true s s' l c none F ∧ ownVec (chars f) s'.blocks c v F ∧ (b = true → v = [f nul]) := by
  have G := good_map f (good_scalar nul)
  have H : Has (ownVec (chars f)) s l (.vec .none 0 0) [] none := ⟨hc, ⟨rfl, rfl, rfl, rfl⟩, fun h => h⟩
  have e0 : resize (scalar nul) l 1 s = grow (scalar nul) l 1 1 (.none, 0, 0) s := by rw [resize, Act.bind_ok (members_ok hc)]; rfl
  rcases allocate_spec G w (n := 1) (by omega) with ⟨s1, cells0, us0, fs0, e, w1, b3, R1, hcl0, hus0, b1, b2, b4⟩ | ⟨s1, e, w1, b3, b1⟩
  · have hc1 : cellAt s1.blocks l = some (.vec .none 0 0) := by rw [cellAt, b1 _ (w _ (cellAt_lt hc))]; exact hc
    obtain ⟨k, -, e2⟩ := write_ok hc1 (.vec (some s.next) 1 1)
    have eg : resize (scalar nul) l 1 s = .ok (s1.setBlock l.1 (some (k.set l.2 (.vec (some s.next) 1 1)))) () := by
      rw [e0, grow, Act.bind_ok e]; exact e2
    rcases strInit_spec f nul w H with ⟨u, e', c, v, F, hA, ho, hv⟩ | ⟨u, e', c, v, F, hA, ho, hv⟩
    · exact .inl ⟨u, e', c, v, F, hA, ho, fun _ => hv⟩
    · -- after the allocation nothing throws
      exfalso
      rcases resize_spec G w H 1 with ⟨s2, e3, c1, v1, F1, hA, ho, hv⟩ | ⟨s2, e3, -⟩
      · simp only [if_true, Resized, if_neg (Nat.succ_ne_zero 0)] at hv
        have H1 : Has (ownVec (chars f)) s2 l c1 v1 F1 := ⟨hA.get hc, ho, hA.out w hc (fun h => h)⟩
        obtain ⟨s3, e4, -⟩ := setElem_spec f hA.step.wf H1 (i := 0) (by omega) nul
        rw [strInit, Act.bind_ok e3, e4] at e'
        cases e'
      · rw [eg] at e3; cases e3
  · have eg : strInit nul l s = .exc s1 := by
      rw [strInit]
      exact Act.bind_exc (by rw [e0, grow]; exact Act.bind_exc e)
    obtain ⟨k, k1, k2⟩ := cellAt_block hc
    refine .inr ⟨s1, eg, .vec .none 0 0, [], none, ⟨⟨w1, b3, fun q h => h.elim, fun q _ _ _ => b1 q, fun _ q hq => .inr ⟨by rw [← b1 q]; exact hq, fun h => h⟩⟩, by rw [b1, k1]; simp [set_self k2]⟩,
      ⟨rfl, rfl, rfl, rfl⟩, fun h => (by cases h)⟩

theorem good_string (f : T → β) (nul : T) : Good false (string nul) (ownVec (chars f)) [f nul] where
  frame := (good_vector (good_map f (good_scalar nul))).frame
  live := (good_vector (good_map f (good_scalar nul))).live
  zero := (good_vector (good_map f (good_scalar nul))).zero
  init := strNew_spec f nul
  assign := (good_vector (good_map f (good_scalar nul))).assign
  del := (good_vector (good_map f (good_scalar nul))).del

theorem strClear_spec (f : T → β) (nul : T) {s : Mem T} {l : Loc} {c : Cell T} {vs : List β} {F : Fp} (w : Wf s) (h : Has (ownVec (chars f)) s l c vs F) :
    Does (strClear nul l) s (Put true (ownVec (chars f)) s l F fun b v => if b then v = [f nul] else v = []) := by
  refine (clear_spec (good_map f (good_scalar nul)) w h).bind ?_ ?_
  · rintro s1 ⟨c1, v1, F1, hA, ho, -, rfl⟩
    refine (strInit_spec f nul hA.step.wf ⟨hA.get h.cell, ho, hA.out w h.cell h.out⟩).mono ?_
    rintro b s2 ⟨c2, v2, F2, hA2, ho2, hv⟩
    exact ⟨c2, v2, F2, hA.trans hA2 fun _ => rfl, ho2, hv⟩
  · rintro s1 ⟨c1, v1, F1, hA, ho, hb, hv⟩
    cases hb

theorem append_spec (f : T → β) (nul : T) {s : Mem T} {l l' : Loc} {c c' : Cell T} {vs vs' : List β} {F F' : Fp} (w : Wf s) (h : Has (ownVec (chars f)) s l c vs F) (h' : Has (ownVec (chars f)) s l' c' vs' F')
    (ap : Apart l l' F F') : Does (append nul l l') s (Put true (ownVec (chars f)) s l F (Assigned vs.dropLast vs')) := by
  have G := good_map f (good_scalar nul)
  have GV := good_vector G
  obtain ⟨p, cap, rfl, hl, -⟩ := ownVec_vec h.own
  -- the terminating zero goes
  have pop : Does (if vs.length < 1 then pure () else popBack l) s (Put true (ownVec (chars f)) s l F fun b v => b = true ∧ v = vs.dropLast) := by
    by_cases h0 : vs.length < 1
    · have : vs = [] := List.length_eq_zero_iff.mp (by omega)
      subst this
      rw [if_pos h0]
      exact .ok rfl ⟨_, [], F, .refl w h.cell F, h.own, rfl, rfl⟩
    · rw [if_neg h0]
      exact popBack_spec G w h fun e => h0 (by rw [e]; simp)
  have e0 : append nul l l' s = ((if vs.length < 1 then pure () else popBack l) >>= fun _ => do
      let w ← members l'
      assignLoop (scalar nul) l w.1 w.2.2 0 : Act (Mem T) Unit) s := by
    rw [append, Act.bind_ok (members_ok h.cell)]
    by_cases h0 : vs.length < 1
    · simp only [h0, if_true]; rfl
    · simp only [h0, if_false]
  refine .of_eq e0 ?_
  refine pop.bind ?_ ?_
  · rintro s1 ⟨c1, v1, F1, hA, ho, -, rfl⟩
    obtain ⟨h1, ap1⟩ := hA.has w GV.frame GV.live h' ap
    have hout := hA.out w h.cell h.out
    obtain ⟨p', cap', rfl, hl', -⟩ := ownVec_vec h1.own
    refine .of_eq (B := assignLoop (scalar nul) l p' vs'.length 0) (s' := s1) (Act.bind_ok (members_ok h1.cell)) ?_
    cases p' with
    | none =>
      obtain ⟨-, e, rfl, -⟩ := h1.own
      exact .ok rfl ⟨c1, _, F1, hA, ho, by simp [Assigned]⟩
    | some p' =>
      obtain ⟨cells, us, fs, R, rfl, h3, h4, rfl⟩ := h1.own
      refine (assignLoop_spec G vs.dropLast vs'.length 0 s1 c1 F1 hA.step.wf ⟨hA.get h.cell, by simpa using ho, hout⟩ R ap1.left ap1.disj (by omega)).mono ?_
      rintro b s2 ⟨c2, v2, F2, hA2, ho2, hv2⟩
      rw [Nat.zero_add, ← h4] at hv2
      exact ⟨c2, v2, F2, hA.trans hA2 fun _ => rfl, ho2, hv2⟩
  · rintro s1 ⟨c1, v1, F1, hA, ho, hb, hv⟩
    cases hb

/-- The end of the temporary of `fromC`. -/
theorem temp_spec (f : T → β) (nul : T) {s : Mem T} {t : Nat} {c : Cell T} {v : List β} {F : Fp} (w : Wf s) (h : Has (ownVec (chars f)) s (t, 0) c v F) (hu : s.blocks (t + 1) ≠ .none) (hF : ¬ F (t + 1)) :
    ∃ s', (do dtor (scalar nul) (t, 0); free t; free (t + 1) : Act (Mem T) Unit) s = .ok s' () ∧ s'.next = s.next ∧ (∀ q, F q ∨ q = t ∨ q = t + 1 → s'.blocks q = .none) ∧
      ∀ q, ¬ F q → q ≠ t → q ≠ t + 1 → s'.blocks q = s.blocks q := by
  obtain ⟨s1, e1, n1, d1, k1⟩ := (good_vector (good_map f (good_scalar nul))).del w h
  have ht : s1.blocks t ≠ .none := by rw [k1 _ h.out]; exact cellAt_lt h.cell
  have e2 : free t s1 = .ok (s1.setBlock t .none) () := by
    cases e : s1.blocks t with
    | none => exact absurd e ht
    | some b => simp [free, e]
  have e3 : free (t + 1) (s1.setBlock t .none) = .ok ((s1.setBlock t .none).setBlock (t + 1) .none) () := by
    have : (s1.setBlock t .none).blocks (t + 1) ≠ .none := by simp only [Mem.setBlock]; rw [if_neg (by omega), k1 _ hF]; exact hu
    cases e : (s1.setBlock t .none).blocks (t + 1) with
    | none => exact absurd e this
    | some b => simp [free, e]
  refine ⟨(s1.setBlock t .none).setBlock (t + 1) .none, by rw [Act.bind_ok (show dtor (scalar nul) (t, 0) s = .ok s1 () from e1), Act.bind_ok e2]; exact e3, n1, fun q hq => ?_, fun q h1 h2 h3 => ?_⟩
  · simp only [Mem.setBlock]
    by_cases h4 : q = t + 1
    · rw [if_pos h4]
    · rw [if_neg h4]
      by_cases h5 : q = t
      · rw [if_pos h5]
      · rw [if_neg h5]
        rcases hq with hq | hq | hq
        · exact d1 q hq
        · exact absurd hq h5
        · exact absurd hq h4
  · simp only [Mem.setBlock]
    rw [if_neg h3, if_neg h2, k1 q h1]

theorem finally_ok {A U : Act (Mem T) Unit} {s s' : Mem T} (h : A s = .ok s' ()) : finally' A U s = U s' := by
  rw [finally', Act.bind_ok (onExc_ok h)]

theorem finally_exc {A U : Act (Mem T) Unit} {s s' s'' : Mem T} (h : A s = .exc s') (h' : U s' = .ok s'' ()) : finally' A U s = .exc s'' :=
  Act.bind_exc (onExc_exc h h')

theorem fromC_spec (f : T → β) (nul : T) (cs : List T) {s : Mem T} {l : Loc} {c : Cell T} {vs : List β} {F : Fp} (w : Wf s) (h : Has (ownVec (chars f)) s l c vs F) :
    Does (fromC nul l cs) s (Put true (ownVec (chars f)) s l F fun b v => b = true → v = (cs ++ [nul]).map f) := by
  have G := good_map f (good_scalar nul)
  have GV := good_vector G
  have hll : l.1 < s.next := w _ (cellAt_lt h.cell)
  have hFl : ∀ q, F q → q < s.next := fun q hq => w q (GV.live _ _ _ _ h.own q hq)
  -- the temporary and the literal
  obtain ⟨s1, hs1⟩ : ∃ s1 : Mem T, s1 = { (s.setBlock s.next (some [.vec .none 0 0])).setBlock (s.next + 1) (some ((cs ++ [nul]).map .val)) with next := s.next + 2 } := ⟨_, rfl⟩
  have n1 : s1.next = s.next + 2 := by rw [hs1]
  have k1 : ∀ q, q ≠ s.next → q ≠ s.next + 1 → s1.blocks q = s.blocks q := by intro q h1 h2; rw [hs1]; simp [Mem.setBlock, h1, h2]
  have kt : s1.blocks s.next = some [.vec .none 0 0] := by rw [hs1]; simp [Mem.setBlock]
  have ku : s1.blocks (s.next + 1) = some ((cs ++ [nul]).map .val) := by rw [hs1]; simp [Mem.setBlock]
  have w1 : Wf s1 := by
    intro q hq
    rw [n1]
    by_cases h1 : q = s.next
    · omega
    · by_cases h2 : q = s.next + 1
      · omega
      · rw [k1 q h1 h2] at hq; have := w q hq; omega
  have ht : Has (ownVec (chars f)) s1 (s.next, 0) (.vec .none 0 0) [] none := ⟨by simp [cellAt, kt], ⟨rfl, rfl, rfl, rfl⟩, fun h => h⟩
  have R : Row (fun _ => chars f) s1.blocks (s.next + 1) ((cs ++ [nul]).map .val) (fun i => f ((cs ++ [nul])[i]?.getD nul)) (fun _ => none) := by
    refine ⟨ku, fun i d hd => ?_, fun i j q h => h.elim, fun i h => h, fun _ _ => rfl⟩
    rw [List.getElem?_map] at hd
    cases e : (cs ++ [nul])[i]? with
    | none => rw [e] at hd; simp at hd
    | some a =>
      rw [e] at hd
      simp only [Option.map_some, Option.some.injEq] at hd
      exact ⟨a, rfl, hd.symm, rfl⟩
  have hwant : (List.range (0 + (cs.length + 1))).map (fun i => f ((cs ++ [nul])[i]?.getD nul)) = (cs ++ [nul]).map f := by
    apply List.ext_getElem (by simp)
    intro j h4 h5
    have hj : j < (cs ++ [nul]).length := by simpa using h5
    simp only [List.getElem_map, List.getElem_range, List.getElem?_eq_getElem hj, Option.getD_some]
  have D := assignLoop_spec G [] (cs.length + 1) 0 s1 _ none w1 (l := (s.next, 0)) (by simpa using ht) R (fun h => h.elim (fun h => by simp at h) fun ⟨_, _, h⟩ => h) (fun q h => h.elim) (by simp)
  rw [hwant] at D
  -- what is left of the temporary while it lives
  have after : ∀ {b : Bool} {s2 : Mem T} {c2 : Cell T} {v2 : List β} {F2 : Fp}, At b s1 s2 (s.next, 0) c2 none F2 → ownVec (chars f) s2.blocks c2 v2 F2 →
      Has (ownVec (chars f)) s2 (s.next, 0) c2 v2 F2 ∧ s2.blocks (s.next + 1) = s1.blocks (s.next + 1) ∧ (∀ q, F2 q → s.next + 2 ≤ q) ∧ ∀ q, q < s.next → s2.blocks q = s.blocks q := by
    intro b s2 c2 v2 F2 hA ho
    have hF2 : ∀ q, F2 q → s.next + 2 ≤ q := fun q hq => by
      rcases hA.step.old q hq with h1 | h1
      · exact h1.elim
      · omega
    refine ⟨⟨hA.get ht.cell, ho, fun h => by have := hF2 _ h; simp at this; omega⟩, hA.step.same _ (by omega) (fun h => h) (by simp), hF2, fun q hq => ?_⟩
    rw [hA.step.same q (by omega) (fun h => h) (by simp; omega), k1 q (by omega) (by omega)]
  have e0 : fromC nul l cs s = finally' (do
      assignLoop (scalar nul) (s.next, 0) (some (s.next + 1)) (cs.length + 1) 0
      assign (scalar nul) l (s.next, 0)) (do
      dtor (scalar nul) (s.next, 0)
      free s.next
      free (s.next + 1)) s1 := by rw [hs1]; rfl
  rcases D with ⟨s2, e2, c2, v2, F2, hA, ho, hv⟩ | ⟨s2, e2, c2, v2, F2, hA, ho, hv⟩
  · obtain ⟨ht2, hu2, hF2, hk2⟩ := after hA ho
    simp only [Assigned, if_true, List.nil_append] at hv
    subst hv
    have hl2 : Has (ownVec (chars f)) s2 l c vs F :=
      ⟨by rw [cellAt, hk2 _ hll]; exact h.cell, GV.frame _ _ _ _ _ h.own fun q hq => hk2 q (hFl q hq), h.out⟩
    have ap : Apart l (s.next, 0) F F2 :=
      ⟨fun e => by rw [← e] at hll; simp at hll, fun h => by have := hF2 _ h; omega, fun h => by have := hFl _ h; simp at this, fun q h1 h2 => by have := hF2 _ h2; have := hFl _ h1; omega⟩
    have A2 := assign_spec G hA.step.wf hl2 ht2 ap
    -- what comes after the assignment
    have fin : ∀ {b : Bool} {s3 : Mem T}, Put true (ownVec (chars f)) s2 l F (Assigned [] ((cs ++ [nul]).map f)) b s3 →
        ∃ s4, (do dtor (scalar nul) (s.next, 0); free s.next; free (s.next + 1) : Act (Mem T) Unit) s3 = .ok s4 () ∧ Put true (ownVec (chars f)) s l F (fun b v => b = true → v = (cs ++ [nul]).map f) b s4 := by
      rintro b s3 ⟨c3, v3, F3, hA3, ho3, hv3⟩
      obtain ⟨ht3, ap3⟩ := hA3.has hA.step.wf GV.frame GV.live ht2 ap
      have hn2 := hA.step.next
      have hn3 := hA3.step.next
      have hF3 : ∀ q, F3 q → F q ∨ s.next + 2 ≤ q := fun q hq => by
        rcases hA3.step.old q hq with h1 | h1
        · exact .inl h1
        · right; omega
      have hu3 : s3.blocks (s.next + 1) = s2.blocks (s.next + 1) := hA3.step.same _ (by omega) (fun h => by have := hFl _ h; omega) (by omega)
      obtain ⟨s4, e4, n4, d4, k4⟩ := temp_spec f nul hA3.step.wf ht3 (by rw [hu3, hu2, ku]; simp) (fun h => by have := hF2 _ h; omega)
      have old4 : ∀ q, q < s.next → s4.blocks q = s3.blocks q := fun q hq => k4 q (fun h => by have := hF2 _ h; omega) (by omega) (by omega)
      refine ⟨s4, e4, c3, v3, F3, ⟨⟨fun q hq => ?_, by omega, fun q hq => ?_, fun q h1 h2 h3 => ?_, fun hb q hq => ?_⟩, ?_⟩, GV.frame _ _ _ _ _ ho3 fun q hq => ?_, fun hb => by rw [hb] at hv3; exact hv3⟩
      · rw [n4]
        apply hA3.step.wf
        intro e
        by_cases h1 : F2 q ∨ q = s.next ∨ q = s.next + 1
        · exact hq (d4 q h1)
        · exact hq ((k4 q (fun h => h1 (.inl h)) (fun h => h1 (.inr (.inl h))) (fun h => h1 (.inr (.inr h)))).trans e)
      · rcases hF3 q hq with h1 | h1
        · exact .inl h1
        · right; omega
      · rw [old4 q h1, hA3.step.same q (by omega) h2 h3, hk2 q h1]
      · have h1 : ¬ (F2 q ∨ q = s.next ∨ q = s.next + 1) := fun h1 => hq (d4 q h1)
        rw [k4 q (fun h => h1 (.inl h)) (fun h => h1 (.inr (.inl h))) (fun h => h1 (.inr (.inr h)))] at hq
        rcases hA3.step.tidy hb q hq with h2 | ⟨h2, h3⟩
        · exact .inl h2
        · rcases hA.step.tidy rfl q h2 with h4 | ⟨h4, -⟩
          · exact (h1 (.inl h4)).elim
          · rw [k1 q (fun h => h1 (.inr (.inl h))) (fun h => h1 (.inr (.inr h)))] at h4
            exact .inr ⟨h4, h3⟩
      · rw [old4 _ hll, hA3.cell, hk2 _ hll]
      · refine k4 q (ap3.disj q hq) ?_ ?_
        · rintro rfl; exact ap3.right hq
        · rintro rfl
          rcases hF3 _ hq with h1 | h1
          · have := hFl _ h1; omega
          · omega
    rcases A2 with ⟨s3, e3, P3⟩ | ⟨s3, e3, P3⟩
    · obtain ⟨s4, e4, P4⟩ := fin P3
      exact .inl ⟨s4, by rw [e0, finally_ok ((Act.bind_ok e2).trans e3)]; exact e4, P4⟩
    · obtain ⟨s4, e4, P4⟩ := fin P3
      exact .inr ⟨s4, by rw [e0, finally_exc ((Act.bind_ok e2).trans e3) e4], P4⟩
  · obtain ⟨ht2, hu2, hF2, hk2⟩ := after hA ho
    have hn2 := hA.step.next
    obtain ⟨s4, e4, n4, d4, k4⟩ := temp_spec f nul hA.step.wf ht2 (by rw [hu2, ku]; simp) (fun h => by have := hF2 _ h; omega)
    have old4 : ∀ q, q < s.next → s4.blocks q = s.blocks q := fun q hq => by rw [k4 q (fun h => by have := hF2 _ h; omega) (by omega) (by omega), hk2 q hq]
    obtain ⟨k, hk, hk'⟩ := cellAt_block h.cell
    refine .inr ⟨s4, by rw [e0, finally_exc (Act.bind_exc e2) e4], c, vs, F, ⟨⟨fun q hq => ?_, by omega, fun q hq => .inl hq, fun q h1 _ _ => old4 q h1, fun _ q hq => ?_⟩, ?_⟩,
      GV.frame _ _ _ _ _ h.own fun q hq => old4 q (hFl q hq), fun hb => (by cases hb)⟩
    · rw [n4]
      apply hA.step.wf
      intro e
      by_cases h1 : F2 q ∨ q = s.next ∨ q = s.next + 1
      · exact hq (d4 q h1)
      · exact hq ((k4 q (fun h => h1 (.inl h)) (fun h => h1 (.inr (.inl h))) (fun h => h1 (.inr (.inr h)))).trans e)
    · have h1 : ¬ (F2 q ∨ q = s.next ∨ q = s.next + 1) := fun h1 => hq (d4 q h1)
      rw [k4 q (fun h => h1 (.inl h)) (fun h => h1 (.inr (.inl h))) (fun h => h1 (.inr (.inr h)))] at hq
      rcases hA.step.tidy rfl q hq with h4 | ⟨h4, -⟩
      · exact (h1 (.inl h4)).elim
      · rw [k1 q (fun h => h1 (.inr (.inl h))) (fun h => h1 (.inr (.inr h)))] at h4
        by_cases hF : F q
        · exact .inl hF
        · exact .inr ⟨h4, hF⟩
    · rw [old4 _ hll, hk]; simp [set_self hk']

/-! ### A copy that is pushed -/

theorem end_spec {τ : Bool} {E : Ops T} {O : Owns T β} {dflt : β} (G : Good τ E O dflt) {s : Mem T} {t : Nat} {c : Cell T} {v : β} {F : Fp} (w : Wf s) (h : Has O s (t, 0) c v F) :
    ∃ s', (do E.del (t, 0); free t : Act (Mem T) Unit) s = .ok s' () ∧ s'.next = s.next ∧ (∀ q, F q ∨ q = t → s'.blocks q = .none) ∧ ∀ q, ¬ F q → q ≠ t → s'.blocks q = s.blocks q := by
  obtain ⟨s1, e1, n1, d1, k1⟩ := G.del w h
  have ht : s1.blocks t ≠ .none := by rw [k1 _ h.out]; exact cellAt_lt h.cell
  have e2 : free t s1 = .ok (s1.setBlock t .none) () := by
    cases e : s1.blocks t with
    | none => exact absurd e ht
    | some b => simp [free, e]
  refine ⟨s1.setBlock t .none, (Act.bind_ok e1).trans e2, n1, fun q hq => ?_, fun q h1 h2 => ?_⟩
  · simp only [Mem.setBlock]
    by_cases h5 : q = t
    · rw [if_pos h5]
    · rw [if_neg h5]
      exact d1 q (hq.resolve_right h5)
  · simp only [Mem.setBlock]
    rw [if_neg h2, k1 q h1]

theorem pushCopy_spec {τ : Bool} {E : Ops T} {O : Owns T β} {dflt : β} (G : Good τ E O dflt) (str : Bool) {s : Mem T} {l r : Loc} {c c' : Cell T} {vs : List β} {x : β} {F F' : Fp} (w : Wf s) (h : Has (ownVec O) s l c vs F)
    (h' : Has O s r c' x F') : Does (pushCopy E str l r) s (Put false (ownVec O) s l F (Pushed vs x)) := by
  have GV := good_vector G
  have hll : l.1 < s.next := w _ (cellAt_lt h.cell)
  have hrl : r.1 < s.next := w _ (cellAt_lt h'.cell)
  have hFl : ∀ q, F q → q < s.next := fun q hq => w q (GV.live _ _ _ _ h.own q hq)
  have hFl' : ∀ q, F' q → q < s.next := fun q hq => w q (G.live _ _ _ _ h'.own q hq)
  obtain ⟨v0, hz⟩ := G.zero
  -- the temporary
  obtain ⟨s1, hs1⟩ : ∃ s1 : Mem T, s1 = { s.setBlock s.next (some [E.zero]) with next := s.next + 1 } := ⟨_, rfl⟩
  have n1 : s1.next = s.next + 1 := by rw [hs1]
  have k1 : ∀ q, q ≠ s.next → s1.blocks q = s.blocks q := by intro q h1; rw [hs1]; simp [Mem.setBlock, h1]
  have kt : s1.blocks s.next = some [E.zero] := by rw [hs1]; simp [Mem.setBlock]
  have w1 : Wf s1 := by
    intro q hq
    rw [n1]
    by_cases h1 : q = s.next
    · omega
    · rw [k1 q h1] at hq; have := w q hq; omega
  have ht : Has O s1 (s.next, 0) E.zero v0 none := ⟨by simp [cellAt, kt], hz _, fun h => h⟩
  have h1' : Has O s1 r c' x F' := ⟨by rw [cellAt, k1 _ (by omega)]; exact h'.cell, G.frame _ _ _ _ _ h'.own fun q hq => k1 q (by have := hFl' q hq; omega), h'.out⟩
  have ap1 : Apart (s.next, 0) r none F' := ⟨fun e => by rw [e] at hrl; simp at hrl, fun h => by have := hFl' _ h; simp at this, fun h => h, fun _ h => h.elim⟩
  have after : ∀ {b : Bool} {s2 : Mem T} {c2 : Cell T} {v2 : β} {F2 : Fp}, At b s1 s2 (s.next, 0) c2 none F2 → O s2.blocks c2 v2 F2 →
      Has O s2 (s.next, 0) c2 v2 F2 ∧ (∀ q, F2 q → s.next + 1 ≤ q) ∧ ∀ q, q < s.next → s2.blocks q = s.blocks q := by
    intro b s2 c2 v2 F2 hA ho
    have hF2 : ∀ q, F2 q → s.next + 1 ≤ q := fun q hq => by
      rcases hA.step.old q hq with h1 | h1
      · exact h1.elim
      · omega
    refine ⟨⟨hA.get ht.cell, ho, fun h => by have := hF2 _ h; simp at this; omega⟩, hF2, fun q hq => ?_⟩
    rw [hA.step.same q (by omega) (fun h => h) (by simp; omega), k1 q (by omega)]
  have e0 : construct E str r s = (do
      onExc (E.assign (s.next, 0) r) (if str then do E.del (s.next, 0); free s.next else free s.next)
      pure s.next : Act (Mem T) Nat) s1 := by rw [hs1]; rfl
  rcases G.assign w1 ht h1' ap1 with ⟨s2, e2, c2, v2, F2, hA, ho, hv, -⟩ | ⟨s2, e2, c2, v2, F2, hA, ho, -⟩
  · obtain ⟨ht2, hF2, hk2⟩ := after hA ho
    obtain rfl := hv rfl
    have hl2 : Has (ownVec O) s2 l c vs F := ⟨by rw [cellAt, hk2 _ hll]; exact h.cell, GV.frame _ _ _ _ _ h.own fun q hq => hk2 q (hFl q hq), h.out⟩
    have ap : Apart l (s.next, 0) F F2 :=
      ⟨fun e => by rw [← e] at hll; simp at hll, fun h => by have := hF2 _ h; omega, fun h => by have := hFl _ h; simp at this, fun q h1 h2 => by have := hF2 _ h2; have := hFl _ h1; omega⟩
    have e5 : construct E str r s = .ok s2 s.next := by rw [e0, Act.bind_ok (onExc_ok e2)]; rfl
    -- what comes after `push_back`
    have fin : ∀ {b : Bool} {s3 : Mem T}, Put false (ownVec O) s2 l F (Pushed vs v2) b s3 →
        ∃ s4, (do E.del (s.next, 0); free s.next : Act (Mem T) Unit) s3 = .ok s4 () ∧ Put false (ownVec O) s l F (Pushed vs v2) b s4 := by
      rintro b s3 ⟨c3, v3, F3, hA3, ho3, hv3⟩
      obtain ⟨ht3, ap3⟩ := hA3.has hA.step.wf G.frame G.live ht2 ap
      have hn2 := hA.step.next
      have hn3 := hA3.step.next
      obtain ⟨s4, e4, n4, d4, k4⟩ := end_spec G hA3.step.wf ht3
      have old4 : ∀ q, q < s.next → s4.blocks q = s3.blocks q := fun q hq => k4 q (fun h => by have := hF2 _ h; omega) (by omega)
      refine ⟨s4, e4, c3, v3, F3, ⟨⟨fun q hq => ?_, by omega, fun q hq => ?_, fun q h1 h2 h3 => ?_, fun hb q hq => ?_⟩, ?_⟩, GV.frame _ _ _ _ _ ho3 fun q hq => ?_, hv3⟩
      · rw [n4]
        apply hA3.step.wf
        intro e
        by_cases h1 : F2 q ∨ q = s.next
        · exact hq (d4 q h1)
        · exact hq ((k4 q (fun h => h1 (.inl h)) (fun h => h1 (.inr h))).trans e)
      · rcases hA3.step.old q hq with h1 | h1
        · exact .inl h1
        · right; omega
      · rw [old4 q h1, hA3.step.same q (by omega) h2 h3, hk2 q h1]
      · have h1 : ¬ (F2 q ∨ q = s.next) := fun h1 => hq (d4 q h1)
        rw [k4 q (fun h => h1 (.inl h)) (fun h => h1 (.inr h))] at hq
        rcases hA3.step.tidy hb q hq with h2 | ⟨h2, h3⟩
        · exact .inl h2
        · rcases hA.step.tidy rfl q h2 with h4 | ⟨h4, -⟩
          · exact (h1 (.inl h4)).elim
          · rw [k1 q (fun h => h1 (.inr h))] at h4
            exact .inr ⟨h4, h3⟩
      · rw [old4 _ hll, hA3.cell, hk2 _ hll]
      · refine k4 q (ap3.disj q hq) ?_
        rintro rfl; exact ap3.right hq
    rcases pushBack_spec G hA.step.wf hl2 ht2 ap with ⟨s3, e3, P3⟩ | ⟨s3, e3, P3⟩
    · obtain ⟨s4, e4, P4⟩ := fin P3.weak
      exact .inl ⟨s4, by rw [pushCopy, Act.bind_ok e5, finally_ok e3]; exact e4, P4⟩
    · obtain ⟨s4, e4, P4⟩ := fin P3.weak
      exact .inr ⟨s4, by rw [pushCopy, Act.bind_ok e5, finally_exc e3 e4], P4⟩
  · obtain ⟨ht2, hF2, hk2⟩ := after hA ho
    have hn2 := hA.step.next
    obtain ⟨s4, e4, n4, w4, k4⟩ : ∃ s4, (if str then do E.del (s.next, 0); free s.next else free s.next : Act (Mem T) Unit) s2 = .ok s4 () ∧ s4.next = s2.next ∧ (∀ q, s4.blocks q ≠ .none → s2.blocks q ≠ .none) ∧
        ∀ q, q < s.next → s4.blocks q = s2.blocks q := by
      cases str with
      | true =>
        obtain ⟨s4, e4, n4, d4, k4⟩ := end_spec G hA.step.wf ht2
        refine ⟨s4, e4, n4, fun q hq => ?_, fun q hq => k4 q (fun h => by have := hF2 _ h; omega) (by omega)⟩
        by_cases h1 : F2 q ∨ q = s.next
        · exact (hq (d4 q h1)).elim
        · rwa [k4 q (fun h => h1 (.inl h)) (fun h => h1 (.inr h))] at hq
      | false =>
        have hb := cellAt_lt ht2.cell
        cases e : s2.blocks s.next with
        | none => exact absurd e hb
        | some b =>
          refine ⟨s2.setBlock s.next .none, by simp [free, e], rfl, fun q hq => ?_, fun q hq => by simp [Mem.setBlock, show q ≠ s.next by omega]⟩
          by_cases h1 : q = s.next
          · subst h1; simp [Mem.setBlock] at hq
          · simpa [Mem.setBlock, h1] using hq
    have old4 : ∀ q, q < s.next → s4.blocks q = s.blocks q := fun q hq => by rw [k4 q hq, hk2 q hq]
    obtain ⟨k, hk, hk'⟩ := cellAt_block h.cell
    refine .inr ⟨s4, Act.bind_exc (by rw [e0]; exact Act.bind_exc (onExc_exc e2 e4)), c, vs, F, ⟨⟨fun q hq => ?_, by omega, fun q hq => .inl hq, fun q h1 _ _ => old4 q h1, fun hb => (by cases hb)⟩, ?_⟩,
      GV.frame _ _ _ _ _ h.own fun q hq => old4 q (hFl q hq), .inl rfl⟩
    · rw [n4]; exact hA.step.wf q (w4 q hq)
    · rw [old4 _ hll, hk]; simp [set_self hk']

/-- The copy of a string whose construction throws leaves nothing. -/
theorem construct_string (f : T → β) (nul : T) {s s' : Mem T} {r : Loc} {c' : Cell T} {xs : List β} {F' : Fp} (w : Wf s) (h' : Has (ownVec (chars f)) s r c' xs F') (e : construct (string nul) true r s = .exc s') : s'.blocks = s.blocks := by
  have G := good_map f (good_scalar nul)
  have GV := good_vector G
  have hrl : r.1 < s.next := w _ (cellAt_lt h'.cell)
  have hFl' : ∀ q, F' q → q < s.next := fun q hq => w q (GV.live _ _ _ _ h'.own q hq)
  obtain ⟨s1, hs1⟩ : ∃ s1 : Mem T, s1 = { s.setBlock s.next (some [.vec .none 0 0]) with next := s.next + 1 } := ⟨_, rfl⟩
  have n1 : s1.next = s.next + 1 := by rw [hs1]
  have k1 : ∀ q, q ≠ s.next → s1.blocks q = s.blocks q := by intro q h1; rw [hs1]; simp [Mem.setBlock, h1]
  have kt : s1.blocks s.next = some [.vec .none 0 0] := by rw [hs1]; simp [Mem.setBlock]
  have w1 : Wf s1 := by
    intro q hq
    rw [n1]
    by_cases h1 : q = s.next
    · omega
    · rw [k1 q h1] at hq; have := w q hq; omega
  have ht : Has (ownVec (chars f)) s1 (s.next, 0) (.vec .none 0 0) [] none := ⟨by simp [cellAt, kt], ⟨rfl, rfl, rfl, rfl⟩, fun h => h⟩
  have h1' : Has (ownVec (chars f)) s1 r c' xs F' := ⟨by rw [cellAt, k1 _ (by omega)]; exact h'.cell, GV.frame _ _ _ _ _ h'.own fun q hq => k1 q (by have := hFl' q hq; omega), h'.out⟩
  have ap1 : Apart (s.next, 0) r none F' := ⟨fun e => by rw [e] at hrl; simp at hrl, fun h => by have := hFl' _ h; simp at this, fun h => h, fun _ h => h.elim⟩
  have e0 : construct (string nul) true r s = (do
      onExc (assign (scalar nul) (s.next, 0) r) (do dtor (scalar nul) (s.next, 0); free s.next)
      pure s.next : Act (Mem T) Nat) s1 := by rw [hs1]; rfl
  rw [e0] at e
  rcases assign_spec G w1 ht h1' ap1 with ⟨s2, e2, -⟩ | ⟨s2, e2, c2, v2, F2, hA, ho, -⟩
  · rw [Act.bind_ok (onExc_ok e2)] at e; cases e
  · have hF2 : ∀ q, F2 q → s.next + 1 ≤ q := fun q hq => by
      rcases hA.step.old q hq with h1 | h1
      · exact h1.elim
      · omega
    have ht2 : Has (ownVec (chars f)) s2 (s.next, 0) c2 v2 F2 := ⟨hA.get ht.cell, ho, fun h => by have := hF2 _ h; simp at this; omega⟩
    obtain ⟨s4, e4, n4, d4, k4⟩ := end_spec GV hA.step.wf ht2
    have e5 : (do dtor (scalar nul) (s.next, 0); free s.next : Act (Mem T) Unit) s2 = .ok s4 () := e4
    rw [Act.bind_exc (onExc_exc e2 e5)] at e
    cases e
    funext q
    by_cases hq : q < s.next
    · rw [k4 q (fun h => by have := hF2 _ h; omega) (by omega), hA.step.same q (by omega) (fun h => h) (by simp; omega), k1 q (by omega)]
    · have : s.blocks q = .none := by
        cases e : s.blocks q with
        | none => rfl
        | some b => exact absurd (w q (by rw [e]; simp)) hq
      rw [this]
      by_cases h1 : F2 q ∨ q = s.next
      · exact d4 q h1
      · rw [k4 q (fun h => h1 (.inl h)) (fun h => h1 (.inr h))]
        cases e : s2.blocks q with
        | none => rfl
        | some b =>
          rcases hA.step.tidy rfl q (by rw [e]; simp) with h2 | ⟨h2, -⟩
          · exact (h1 (.inl h2)).elim
          · rw [k1 q (fun h => h1 (.inr h)), this] at h2
            exact (h2 rfl).elim

end Nanostl.Vector.Nest
