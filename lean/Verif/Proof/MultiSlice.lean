import Verif.Proof.Narrow
/-! # Lemmas about slicing by a list of entries -/
namespace Spec
open Rstsr

/-- Number of axes the entries produce. -/
def outAxes : List Indexer → Nat
  | [] => 0
  | .slice _ :: rest => outAxes rest + 1
  | .insert :: rest => outAxes rest + 1
  | _ :: rest => outAxes rest

theorem usedAxes_append (E F : List Indexer) : usedAxes (E ++ F) = usedAxes E + usedAxes F := by
  induction E with
  | nil => simp [usedAxes]
  | cons e E ih => cases e <;> simp [usedAxes, ih] <;> omega

theorem outAxes_append (E F : List Indexer) : outAxes (E ++ F) = outAxes E + outAxes F := by
  induction E with
  | nil => simp [outAxes]
  | cons e E ih => cases e <;> simp [outAxes, ih] <;> omega

theorem usedAxes_reverse (E : List Indexer) : usedAxes E.reverse = usedAxes E := by
  induction E with
  | nil => rfl
  | cons e E ih => rw [List.reverse_cons, usedAxes_append, ih]; cases e <;> simp [usedAxes]

theorem outAxes_reverse (E : List Indexer) : outAxes E.reverse = outAxes E := by
  induction E with
  | nil => rfl
  | cons e E ih => rw [List.reverse_cons, outAxes_append, ih]; cases e <;> simp [outAxes]

theorem Legal.used {E : List Indexer} {ds : List Nat} (h : Legal E ds) : usedAxes E = ds.length := by
  induction E generalizing ds with
  | nil => cases ds <;> simp_all [Legal, usedAxes]
  | cons e E ih =>
    cases e with
    | slice s => cases ds with
      | nil => simp [Legal] at h
      | cons d ds => simp only [Legal] at h; simp [usedAxes, ih h.2]
    | select s => cases ds with
      | nil => simp [Legal] at h
      | cons d ds => simp only [Legal] at h; simp [usedAxes, ih h.2]
    | insert => simp only [Legal] at h; simp [usedAxes, ih h]
    | ellipsis => cases ds <;> simp [Legal] at h

theorem Legal.no_ellipsis {E : List Indexer} {ds : List Nat} (h : Legal E ds) : .ellipsis ∉ E := by
  induction E generalizing ds with
  | nil => simp
  | cons e E ih =>
    cases e with
    | slice s => cases ds with
      | nil => simp [Legal] at h
      | cons d ds => simp only [Legal] at h; simpa using ih h.2
    | select s => cases ds with
      | nil => simp [Legal] at h
      | cons d ds => simp only [Legal] at h; simpa using ih h.2
    | insert => simp only [Legal] at h; simpa using ih h
    | ellipsis => cases ds <;> simp [Legal] at h

theorem legal_append {E F : List Indexer} {ds ds' : List Nat} (hu : usedAxes E = ds.length) :
    Legal (E ++ F) (ds ++ ds') ↔ Legal E ds ∧ Legal F ds' := by
  induction E generalizing ds with
  | nil => cases ds <;> simp_all [usedAxes, Legal]
  | cons e E ih =>
    cases e with
    | slice s => cases ds with
      | nil => simp [usedAxes] at hu
      | cons d ds =>
        simp only [usedAxes, List.length_cons, Nat.add_right_cancel_iff] at hu
        simp [Legal, ih hu, and_assoc]
    | select s => cases ds with
      | nil => simp [usedAxes] at hu
      | cons d ds =>
        simp only [usedAxes, List.length_cons, Nat.add_right_cancel_iff] at hu
        simp [Legal, ih hu, and_assoc]
    | insert => simp only [usedAxes] at hu; simp [Legal, ih hu]
    | ellipsis =>
      cases ds <;> cases ds' <;> simp [Legal]

theorem allPyOk_append {E F : List Indexer} {ds ds' : List Nat} (hl : Legal E ds) :
    AllPyOk (E ++ F) (ds ++ ds') ↔ AllPyOk E ds ∧ AllPyOk F ds' := by
  induction E generalizing ds with
  | nil => cases ds <;> simp_all [AllPyOk, Legal]
  | cons e E ih =>
    cases e with
    | slice s => cases ds with
      | nil => simp [Legal] at hl
      | cons d ds => simp only [Legal] at hl; simp [AllPyOk, ih hl.2, and_assoc]
    | select s => cases ds with
      | nil => simp [Legal] at hl
      | cons d ds => simp only [Legal] at hl; simp [AllPyOk, ih hl.2]
    | insert => simp only [Legal] at hl; simp [AllPyOk, ih hl]
    | ellipsis => cases ds <;> simp [Legal] at hl

theorem outShape_append {E F : List Indexer} {ds ds' ns ns' : List Nat} (h : OutShape E ds ns)
    (h' : OutShape F ds' ns') : OutShape (E ++ F) (ds ++ ds') (ns ++ ns') := by
  induction E generalizing ds ns with
  | nil => cases ds <;> cases ns <;> simp_all [OutShape]
  | cons e E ih =>
    cases e with
    | slice s => cases ds with
      | nil => simp [OutShape] at h
      | cons d ds => cases ns with
        | nil => simp [OutShape] at h
        | cons n ns => simp only [OutShape] at h; simp only [List.cons_append, OutShape]; exact ⟨h.1, ih h.2⟩
    | select s => cases ds with
      | nil => simp [OutShape] at h
      | cons d ds => simp only [OutShape] at h; simp only [List.cons_append, OutShape]; exact ih h
    | insert => cases ns with
      | nil => simp [OutShape] at h
      | cons n ns =>
        simp only [OutShape] at h; simp only [List.cons_append, OutShape]; exact ⟨h.1, ih h.2⟩
    | ellipsis => cases ds <;> simp [OutShape] at h

theorem srcIndex_append {E F : List Indexer} {ds ds' ks ks' : List Nat} (hl : Legal E ds)
    (hk : ks.length = outAxes E) :
    srcIndex (E ++ F) (ds ++ ds') (ks ++ ks') = srcIndex E ds ks ++ srcIndex F ds' ks' := by
  induction E generalizing ds ks with
  | nil => cases ds <;> cases ks <;> simp_all [srcIndex, outAxes, Legal]
  | cons e E ih =>
    cases e with
    | slice s => cases ds with
      | nil => simp [Legal] at hl
      | cons d ds => cases ks with
        | nil => simp [outAxes] at hk
        | cons k ks =>
          simp only [Legal] at hl
          simp only [List.cons_append, srcIndex, ih hl.2 (by simpa [outAxes] using hk)]
    | select s => cases ds with
      | nil => simp [Legal] at hl
      | cons d ds =>
        simp only [Legal] at hl
        simp only [List.cons_append, srcIndex, ih hl.2 (by simpa [outAxes] using hk)]
    | insert => cases ks with
      | nil => simp [outAxes] at hk
      | cons k ks =>
        simp only [Legal] at hl
        simp only [List.cons_append, srcIndex, ih hl (by simpa [outAxes] using hk)]
    | ellipsis => cases ds <;> simp [Legal] at hl

end Spec

namespace Rstsr
open Spec

theorem getD_append_cons {α : Type} (P : List α) (x : α) (Q : List α) (d : α) :
    (P ++ x :: Q).getD P.length d = x := by simp [List.getD_eq_getElem?_getD]

theorem insertIdx_length {α : Type} (P Q : List α) (y : α) : (P ++ Q).insertIdx P.length y = P ++ y :: Q := by
  induction P with
  | nil => simp
  | cons p P ih => simp [ih]

theorem NarrowTo.split {P Q : List Axis} {x : Axis} {off : Int} {m : Layout} {n : Nat} {start step : Int}
    (h : NarrowTo ⟨P ++ x :: Q, off⟩ m P.length n start step) :
    ∃ y, m = ⟨P ++ y :: Q, m.offset⟩ ∧ y.dim = n ∧
      ∀ k : Nat, k < n → (start + k * step).toNat < x.dim ∧
        m.offset + (k : Int) * y.str = off + ((start + k * step).toNat : Nat) * x.str := by
  have hin := h.inside
  have hf := h.form
  simp only [getD_append_cons] at hin hf
  rcases hf with ⟨e1, e2⟩ | ⟨h1, h2, h3⟩
  · refine ⟨⟨n, x.str * step⟩, ?_, rfl, ?_⟩
    · obtain ⟨ax, o⟩ := m
      simp only at e1
      simp only [e1, Layout.mk.injEq, and_true]
      simp
    · intro k hk
      have := hin k hk
      refine ⟨by omega, ?_⟩
      rw [Int.toNat_of_nonneg this.1, e2]; ring
  · subst h3
    exact ⟨x, rfl, by omega, fun k hk => by omega⟩

theorem sliceLoop_spec (es : List Indexer) {P Q : List Axis} {off : Int} (hG : Good ⟨P ++ Q, off⟩)
    (hl : Legal es.reverse (dims P)) :
    ∃ P' off', Layout.sliceLoop ⟨P ++ Q, off⟩ P.length es = .ok (⟨P' ++ Q, off'⟩, 0) ∧
      Good ⟨P' ++ Q, off'⟩ ∧ P'.length = outAxes es ∧
      (AllPyOk es.reverse (dims P) → OutShape es.reverse (dims P) (dims P')) ∧
      ∀ j, InRange j (dims P') → ∃ i, InRange i (dims P) ∧ off' + dot j P' = off + dot i P ∧
        (AllPyOk es.reverse (dims P) → i = srcIndex es.reverse (dims P) j) := by
  induction es generalizing P Q off with
  | nil =>
    have hP : P = [] := by
      have := hl.used
      simpa [usedAxes, eq_comm] using this
    subst hP
    refine ⟨[], off, by simp [Layout.sliceLoop], hG, rfl, fun _ => by simp [OutShape], ?_⟩
    intro j hj
    have hj : j = [] := inRange_nil_right.1 hj
    subst hj
    exact ⟨[], trivial, rfl, fun _ => by simp [srcIndex]⟩
  | cons e es ih =>
    have hu := hl.used
    rw [List.reverse_cons] at hl ⊢
    rw [List.reverse_cons, usedAxes_append, usedAxes_reverse] at hu
    -- the last axis of `P` belongs to `e` when `e` uses one
    have hlast : ∀ c : Nat, usedAxes es + (c + 1) = (dims P).length →
        ∃ P0 x, P = P0 ++ [x] ∧ usedAxes es.reverse + c = (dims P0).length := by
      intro c hc
      have hne : P ≠ [] := by rintro rfl; simp at hc
      refine ⟨P.dropLast, P.getLast hne, (List.dropLast_append_getLast hne).symm, ?_⟩
      rw [usedAxes_reverse]
      simp only [List.length_map, List.length_dropLast] at hc ⊢; omega
    cases e with
    | ellipsis =>
      exact absurd hl.no_ellipsis (by simp)
    | insert =>
      simp only [usedAxes, Nat.add_zero] at hu
      obtain ⟨l1, -⟩ := (legal_append (F := [.insert]) (ds' := []) (ds := dims P)
        (by rw [usedAxes_reverse]; exact hu)).1 (by simpa using hl)
      have hax : AxisOk (Layout.ndim ⟨P ++ Q, off⟩ + 1) (P.length : Int) :=
        axisOk_ofNat (by simp [Layout.ndim]; omega)
      have hd : ∃ s, Layout.dimInsert ⟨P ++ Q, off⟩ P.length = .ok ⟨P ++ ⟨1, s⟩ :: Q, off⟩ := by
        obtain ⟨m, hm⟩ : ∃ m, Layout.dimInsert ⟨P ++ Q, off⟩ P.length = .ok m :=
          ⟨_, (dimInsert_ok hG).2 ⟨hax, _, rfl, rfl⟩⟩
        obtain ⟨_, s, rfl, _⟩ := (dimInsert_ok hG).1 hm
        refine ⟨s, ?_⟩
        rw [hm, normAxis_ofNat]; simp only [insertIdx_length]
      obtain ⟨s, hd⟩ := hd
      have hG' : Good ⟨P ++ ⟨1, s⟩ :: Q, off⟩ := by
        have := insert_good hG (a := P.length) (s := s) (by simp)
        simpa only [insertIdx_length] using this
      obtain ⟨P', off', h1, h2, h3, h4, h5⟩ := ih hG' l1
      refine ⟨P' ++ [⟨1, s⟩], off', ?_, by simpa using h2, ?_, ?_, ?_⟩
      · simp only [Layout.sliceLoop, hd, ok_bind, h1]; simp
      · simp [h3, outAxes]
      · intro hpy
        have hpy' := ((allPyOk_append (F := [.insert]) (ds' := []) l1).1 (by simpa using hpy)).1
        have := outShape_append (F := [.insert]) (ds' := []) (ns' := [1]) (h4 hpy') (by simp [OutShape])
        simpa using this
      · intro j hj
        have hjl : j.length = P'.length + 1 := by simpa using hj.length_eq
        obtain ⟨j0, k, rfl⟩ : ∃ j0 k, j = j0 ++ [k] := by
          have hne : j ≠ [] := by rintro rfl; simp at hjl
          exact ⟨_, _, (List.dropLast_append_getLast hne).symm⟩
        simp only [List.length_append, List.length_singleton, Nat.add_right_cancel_iff] at hjl
        have hj' : InRange (j0 ++ [k]) (dims P' ++ [1]) := by simpa using hj
        rw [inRange_append (by simpa using hjl)] at hj'
        obtain ⟨i, g1, g2, g3⟩ := h5 j0 hj'.1
        have hk : k = 0 := by simpa using hj'.2
        refine ⟨i, g1, ?_, ?_⟩
        · rw [dot_append hjl, hk, ← g2]; simp
        · intro hpy
          have hpy' := ((allPyOk_append (F := [.insert]) (ds' := []) l1).1 (by simpa using hpy)).1
          have := srcIndex_append (F := [.insert]) (ds' := []) (ks' := [k]) l1 (ks := j0)
            (by rw [outAxes_reverse, hjl, h3])
          rw [List.append_nil] at this
          rw [this, ← g3 hpy']; simp [srcIndex]
    | slice s =>
      simp only [usedAxes] at hu
      obtain ⟨P0, x, rfl, hu0⟩ := hlast 0 hu
      have ed : dims (P0 ++ [x]) = dims P0 ++ [x.dim] := by simp
      rw [ed] at hl ⊢
      obtain ⟨l1, l2⟩ := (legal_append (by simpa using hu0)).1 hl
      simp only [Legal] at l2
      have hcur : (((P0 ++ [x]).length : Nat) : Int) - 1 = (P0.length : Int) := by simp
      have eqP : (P0 ++ [x]) ++ Q = P0 ++ x :: Q := by simp
      rw [eqP] at hG ⊢
      obtain ⟨m, n, start, d1, d2, d3⟩ := dimNarrow_spec hG.accepted (axis := (P0.length : Int)) (s := s)
        (axisOk_ofNat (by simp [Layout.ndim])) l2.1
      rw [normAxis_ofNat] at d2 d3
      simp only [getD_append_cons] at d3
      have hGm := d2.good hG.accepted
      obtain ⟨y, e1, e2, e3⟩ := d2.split
      rw [e1] at hGm
      obtain ⟨P', off', h1, h2, h3, h4, h5⟩ := ih hGm l1
      refine ⟨P' ++ [y], off', ?_, by simpa using h2, ?_, ?_, ?_⟩
      · simp only [Layout.sliceLoop, hcur, d1, ok_bind]
        rw [e1, h1]; simp
      · simp [h3, outAxes]
      · intro hpy
        obtain ⟨p1, p2⟩ := (allPyOk_append l1).1 hpy
        simp only [AllPyOk, and_true] at p2
        have := outShape_append (F := [.slice s]) (ds' := [x.dim]) (ns' := [n]) (h4 p1)
          (by simp only [OutShape, and_true]; exact (d3 p2).1)
        simpa [e2] using this
      · intro j hj
        have hjl : j.length = P'.length + 1 := by simpa using hj.length_eq
        obtain ⟨j0, k, rfl⟩ : ∃ j0 k, j = j0 ++ [k] := by
          have hne : j ≠ [] := by rintro rfl; simp at hjl
          exact ⟨_, _, (List.dropLast_append_getLast hne).symm⟩
        simp only [List.length_append, List.length_singleton, Nat.add_right_cancel_iff] at hjl
        have hj' : InRange (j0 ++ [k]) (dims P' ++ [n]) := by simpa [e2] using hj
        rw [inRange_append (by simpa using hjl)] at hj'
        obtain ⟨i, g1, g2, g3⟩ := h5 j0 hj'.1
        have hk : k < n := by simpa using hj'.2
        obtain ⟨f1, f2⟩ := e3 k hk
        have hil : i.length = P0.length := by simpa using g1.length_eq
        refine ⟨i ++ [(start + k * s.step.getD 1).toNat], ?_, ?_, ?_⟩
        · rw [inRange_append (by simpa using hil)]; simpa using ⟨g1, f1⟩
        · rw [dot_append hjl, dot_append hil]
          simp only [dot_cons, dot_nil_left, add_zero]
          linarith
        · intro hpy
          obtain ⟨p1, p2⟩ := (allPyOk_append l1).1 hpy
          simp only [AllPyOk, and_true] at p2
          rw [srcIndex_append l1 (by rw [outAxes_reverse, hjl, h3]), ← g3 p1]
          simp only [srcIndex, pyPos, (d3 p2).2 (by omega)]
    | select idx =>
      simp only [usedAxes] at hu
      obtain ⟨P0, x, rfl, hu0⟩ := hlast 0 hu
      have ed : dims (P0 ++ [x]) = dims P0 ++ [x.dim] := by simp
      rw [ed] at hl ⊢
      obtain ⟨l1, l2⟩ := (legal_append (by simpa using hu0)).1 hl
      simp only [Legal] at l2
      have hcur : (((P0 ++ [x]).length : Nat) : Int) - 1 = (P0.length : Int) := by simp
      have eqP : (P0 ++ [x]) ++ Q = P0 ++ x :: Q := by simp
      rw [eqP] at hG ⊢
      have hgx : (P0 ++ x :: Q).getD P0.length default = x := getD_append_cons ..
      have hp := normAxis_lt l2.1
      have hd : Layout.dimSelect ⟨P0 ++ x :: Q, off⟩ P0.length idx
          = .ok ⟨P0 ++ Q, off + x.str * (normAxis x.dim idx : Nat)⟩ := by
        refine (dimSelect_ok hG.accepted).2 ⟨axisOk_ofNat (by simp [Layout.ndim]), ?_, ?_⟩
        · simp only [normAxis_ofNat]; rw [hgx]; exact l2.1
        · simp only [normAxis_ofNat]; rw [hgx]
          rw [List.eraseIdx_append_of_length_le (by simp)]; simp
      have hG' : Good ⟨P0 ++ Q, off + x.str * (normAxis x.dim idx : Nat)⟩ := by
        have := erase_good hG.accepted (a := P0.length) (p := (normAxis x.dim idx : Nat)) (by simp) (by omega)
          (by simp only; rw [hgx]; exact_mod_cast hp)
        simp only at this
        rw [hgx, List.eraseIdx_append_of_length_le (by simp)] at this
        simpa using this
      obtain ⟨P', off', h1, h2, h3, h4, h5⟩ := ih hG' l1
      refine ⟨P', off', ?_, h2, ?_, ?_, ?_⟩
      · simp only [Layout.sliceLoop, hcur, hd, ok_bind, h1]
      · simp [h3, outAxes]
      · intro hpy
        obtain ⟨p1, p2⟩ := (allPyOk_append l1).1 hpy
        have := outShape_append (F := [.select idx]) (ds' := [x.dim]) (ns' := []) (h4 p1) (by simp [OutShape])
        simpa using this
      · intro j hj
        obtain ⟨i, g1, g2, g3⟩ := h5 j hj
        have hil : i.length = P0.length := by simpa using g1.length_eq
        have hjl : j.length = P'.length := by simpa using hj.length_eq
        refine ⟨i ++ [normAxis x.dim idx], ?_, ?_, ?_⟩
        · rw [inRange_append (by simpa using hil)]; simpa using ⟨g1, hp⟩
        · rw [dot_append hil]
          simp only [dot_cons, dot_nil_left, add_zero]
          rw [g2]; ring
        · intro hpy
          obtain ⟨p1, p2⟩ := (allPyOk_append l1).1 hpy
          have := srcIndex_append (F := [.select idx]) (ds' := [x.dim]) (ks' := []) l1 (ks := j)
            (by rw [outAxes_reverse, hjl, h3])
          rw [List.append_nil] at this
          rw [this, ← g3 p1]; simp [srcIndex]

/-- Successful slicing means every entry was legal. -/
theorem sliceLoop_legal (es : List Indexer) {P Q : List Axis} {off : Int} (hG : Good ⟨P ++ Q, off⟩)
    (hu : usedAxes es = P.length) {r : Layout × Int}
    (h : Layout.sliceLoop ⟨P ++ Q, off⟩ P.length es = .ok r) : Legal es.reverse (dims P) := by
  induction es generalizing P Q off with
  | nil =>
    have : P = [] := by simpa [usedAxes, eq_comm] using hu
    subst this; simp [Legal]
  | cons e es ih =>
    rw [List.reverse_cons]
    have hlast : ∀ c : Nat, usedAxes es + (c + 1) = (dims P).length →
        ∃ P0 x, P = P0 ++ [x] ∧ usedAxes es + c = P0.length := by
      intro c hc
      have hne : P ≠ [] := by rintro rfl; simp at hc
      refine ⟨P.dropLast, P.getLast hne, (List.dropLast_append_getLast hne).symm, ?_⟩
      simp only [List.length_map, List.length_dropLast] at hc ⊢; omega
    cases e with
    | ellipsis => simp [Layout.sliceLoop] at h
    | insert =>
      simp only [usedAxes] at hu
      obtain ⟨m, hm, h⟩ := bind_ok.1 h
      obtain ⟨-, s, rfl, -⟩ := (dimInsert_ok hG).1 hm
      rw [normAxis_ofNat] at h
      have hG' := insert_good hG (a := P.length) (s := s) (by simp)
      simp only [insertIdx_length] at h hG'
      have := ih hG' hu h
      have h2 := (legal_append (F := [.insert]) (ds' := []) (by rw [usedAxes_reverse]; simpa using hu)).2
        ⟨this, by simp [Legal]⟩
      simpa using h2
    | slice s =>
      simp only [usedAxes] at hu
      obtain ⟨P0, x, rfl, hu0⟩ := hlast 0 (by simpa using hu)
      have hcur : (((P0 ++ [x]).length : Nat) : Int) - 1 = (P0.length : Int) := by simp
      have eqP : (P0 ++ [x]) ++ Q = P0 ++ x :: Q := by simp
      rw [eqP] at hG h
      simp only [Layout.sliceLoop, hcur] at h
      obtain ⟨m, hm, h⟩ := bind_ok.1 h
      obtain ⟨c1, c2⟩ := dimNarrow_ok_axis hm
      obtain ⟨m', n, start, d1, d2, d3⟩ := dimNarrow_spec hG.accepted c1 c2
      rw [hm] at d1
      cases d1
      rw [normAxis_ofNat] at d2
      have hGm := d2.good hG.accepted
      obtain ⟨y, e1, e2, e3⟩ := d2.split
      rw [e1] at hGm h
      have := ih hGm hu0 h
      have h2 := (legal_append (F := [.slice s]) (ds' := [x.dim]) (by rw [usedAxes_reverse]; simpa using hu0)).2
        ⟨this, by simpa [Legal] using c2⟩
      simpa using h2
    | select idx =>
      simp only [usedAxes] at hu
      obtain ⟨P0, x, rfl, hu0⟩ := hlast 0 (by simpa using hu)
      have hcur : (((P0 ++ [x]).length : Nat) : Int) - 1 = (P0.length : Int) := by simp
      have eqP : (P0 ++ [x]) ++ Q = P0 ++ x :: Q := by simp
      rw [eqP] at hG h
      simp only [Layout.sliceLoop, hcur] at h
      obtain ⟨m, hm, h⟩ := bind_ok.1 h
      obtain ⟨c1, c2, rfl⟩ := (dimSelect_ok hG.accepted).1 hm
      have hgx : (P0 ++ x :: Q).getD P0.length default = x := getD_append_cons ..
      simp only [normAxis_ofNat] at c2 h
      rw [hgx] at c2 h
      have hG' := erase_good hG.accepted (a := P0.length) (p := (normAxis x.dim idx : Nat)) (by simp) (by omega)
          (by simp only; rw [hgx]; exact_mod_cast normAxis_lt c2)
      simp only at hG'
      rw [hgx] at hG'
      rw [List.eraseIdx_append_of_length_le (by simp)] at hG' h
      simp only [Nat.sub_self, List.eraseIdx_cons_zero] at hG' h
      have := ih hG' hu0 h
      have h2 := (legal_append (F := [.select idx]) (ds' := [x.dim]) (by rw [usedAxes_reverse]; simpa using hu0)).2
        ⟨this, by simpa [Legal] using c2⟩
      simpa using h2

theorem countIndexers_none {ix : List Indexer} (h : .ellipsis ∉ ix) (n c : Nat) (e : Option Nat) :
    Layout.countIndexers n c e ix = .ok (c + usedAxes ix, e) := by
  induction ix generalizing n c with
  | nil => simp [Layout.countIndexers, usedAxes]
  | cons i ix ih =>
    have h' : .ellipsis ∉ ix := fun hm => h (List.mem_cons_of_mem _ hm)
    cases i with
    | ellipsis => simp at h
    | _ => simp [Layout.countIndexers, usedAxes, ih h', Nat.add_assoc, Nat.add_comm 1]

theorem countIndexers_some {ix : List Indexer} (h : .ellipsis ∈ ix) (n c k : Nat) :
    Layout.countIndexers n c (some k) ix = .error .invalidValue := by
  induction ix generalizing n c with
  | nil => simp at h
  | cons i ix ih =>
    cases i with
    | ellipsis => simp [Layout.countIndexers]
    | _ => simp [Layout.countIndexers, ih (by simpa using h)]

theorem countIndexers_split {A B : List Indexer} (h : .ellipsis ∉ A) (n c : Nat) :
    Layout.countIndexers n c none (A ++ .ellipsis :: B) =
      Layout.countIndexers (n + A.length + 1) (c + usedAxes A) (some (n + A.length)) B := by
  induction A generalizing n c with
  | nil => simp [Layout.countIndexers, usedAxes]
  | cons i A ih =>
    have h' : .ellipsis ∉ A := fun hm => h (List.mem_cons_of_mem _ hm)
    cases i with
    | ellipsis => simp at h
    | _ => simp [Layout.countIndexers, usedAxes, ih h', Nat.add_assoc, Nat.add_comm 1]

theorem flatMap_noEll {A : List Indexer} (h : .ellipsis ∉ A) (R : List Indexer) :
    (A.flatMap fun e => if e = .ellipsis then R else [e]) = A := by
  induction A with
  | nil => rfl
  | cons a A ih =>
    rw [List.flatMap_cons, ih fun hm => h (List.mem_cons_of_mem _ hm)]
    rw [if_neg (by rintro rfl; exact h (by simp))]; rfl

/-- Counting and filling compute the expanded list, or fail on a second ellipsis. -/
theorem count_fill (ix : List Indexer) :
    (ix.count .ellipsis ≤ 1 ∧ ∃ e, Layout.countIndexers 0 0 none ix = .ok (usedAxes ix, e) ∧
      ∀ k, Layout.fillIndexers ix k e = expand ix k) ∨
    (2 ≤ ix.count .ellipsis ∧ Layout.countIndexers 0 0 none ix = .error .invalidValue) := by
  by_cases h : .ellipsis ∈ ix
  · obtain ⟨A, B, rfl, hA⟩ := List.eq_append_cons_of_mem h
    rw [countIndexers_split hA]
    by_cases hB : .ellipsis ∈ B
    · right
      refine ⟨?_, countIndexers_some hB _ _ _⟩
      have := List.count_pos_iff.2 hB
      simp [List.count_append]; omega
    · left
      refine ⟨?_, some A.length, ?_, ?_⟩
      · simp [List.count_append, List.count_eq_zero_of_not_mem hA, List.count_eq_zero_of_not_mem hB]
      · rw [countIndexers_none hB]
        simp [usedAxes_append, usedAxes]
      · intro k
        unfold Layout.fillIndexers expand
        rw [if_pos h, List.flatMap_append, List.flatMap_cons, flatMap_noEll hA, flatMap_noEll hB, if_pos rfl]
        split
        · rename_i hk; subst hk
          simp only
          rw [List.eraseIdx_append_of_length_le (by simp)]; simp
        · rename_i hk
          have e : List.replicate k (Indexer.slice ⟨none, none, none⟩)
              = List.replicate (k - 1) (Indexer.slice ⟨none, none, none⟩) ++ [.slice ⟨none, none, none⟩] := by
            rw [← List.replicate_succ']; congr 1; omega
          rw [e]
          simp [Layout.fullSlice]
  · left
    refine ⟨by rw [List.count_eq_zero_of_not_mem h]; omega, none, by rw [countIndexers_none h]; simp, ?_⟩
    intro k
    unfold Layout.fillIndexers expand
    rw [if_neg h]
    split
    · rename_i hk; subst hk; simp
    · rfl

end Rstsr
