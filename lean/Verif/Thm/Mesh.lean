import Verif.Thm.Concat
import Verif.Thm.Copy
/-!
# Theorems on `meshgrid` (C54)

The grid has one axis per input. Input number `i` belongs to axis `Spec.meshAxis xy i`.
-/
namespace Rstsr
open Spec

section
variable {α : Type}

theorem meshAxis_invol (xy : Bool) (i : Nat) : meshAxis xy (meshAxis xy i) = i := by
  unfold meshAxis
  cases xy
  · rfl
  · simp only [if_true]
    by_cases h0 : i = 0
    · subst h0; rfl
    · by_cases h1 : i = 1
      · subst h1; rfl
      · rw [if_neg h0, if_neg h1, if_neg h0, if_neg h1]

theorem meshAxis_lt {xy : Bool} {i n : Nat} (hn : 2 ≤ n) (h : i < n) : meshAxis xy i < n := by
  unfold meshAxis; cases xy <;> simp only [if_true, Bool.false_eq_true, if_false] <;> (try split_ifs) <;> omega

theorem meshShape_eq (n i : Nat) (xy : Bool) : Tensor.meshShape n i xy = (List.replicate n (1 : Int)).set (meshAxis xy i) (-1) := by
  unfold Tensor.meshShape meshAxis
  cases xy <;> simp

theorem set_replicate {β : Type} {n k : Nat} (h : k < n) (x v : β) :
    (List.replicate n x).set k v = List.replicate k x ++ v :: List.replicate (n - 1 - k) x := by
  induction n generalizing k with
  | zero => omega
  | succ n ih =>
    cases k with
    | zero => simp [List.replicate_succ]
    | succ k =>
      rw [List.replicate_succ, List.set_cons_succ, ih (by omega), List.replicate_succ, List.cons_append]
      congr 4
      omega

theorem prod_ones (n : Nat) : (List.replicate n 1).prod = 1 := by
  induction n with
  | zero => rfl
  | succ n ih => rw [List.replicate_succ, List.prod_cons, ih]

theorem subst_mesh {n k size : Nat} (h : k < n) :
    substituteNegatives ((List.replicate n (1 : Int)).set k (-1)) size = .ok ((List.replicate n 1).set k size) := by
  have h1 : ((List.replicate k (1 : Int) ++ List.replicate (n - 1 - k) 1).map Int.toNat).prod = 1 := by
    rw [List.replicate_append_replicate, List.map_replicate]
    exact prod_ones _
  rw [set_replicate h, set_replicate h]
  refine (C20_infer _ _ size _ (by simp) (by simp) (by rw [h1]; simp)).2 ?_
  rw [h1]
  simp

theorem rankC_mesh {n k d q : Nat} (h : k < n) : rankC ((List.replicate n 1).set k d) ((List.replicate n 0).set k q) = q := by
  have zero : ∀ n, rankC (List.replicate n 1) (List.replicate n 0) = 0 := by
    intro n
    induction n with
    | zero => rfl
    | succ n ih => rw [List.replicate_succ, List.replicate_succ]; simp [rankC, ih]
  induction n generalizing k with
  | zero => omega
  | succ n ih =>
    cases k with
    | zero => simp [List.replicate_succ, rankC, zero]
    | succ k => simp [List.replicate_succ, rankC, ih (k := k) (by omega)]

theorem rankF_mesh {n k d q : Nat} (h : k < n) : rankF ((List.replicate n 1).set k d) ((List.replicate n 0).set k q) = q := by
  have zero : ∀ n, rankF (List.replicate n 1) (List.replicate n 0) = 0 := by
    intro n
    induction n with
    | zero => rfl
    | succ n ih => simp [List.replicate_succ, rankF, ih]
  induction n generalizing k with
  | zero => omega
  | succ n ih =>
    cases k with
    | zero => simp [List.replicate_succ, rankF, zero]
    | succ k => simp [List.replicate_succ, rankF, ih (k := k) (by omega)]

theorem inRange_mesh {n k d q : Nat} (h : q < d) : InRange ((List.replicate n 0).set k q) ((List.replicate n 1).set k d) := by
  induction n generalizing k with
  | zero => exact trivial
  | succ n ih =>
    cases k with
    | zero =>
      refine ⟨h, ?_⟩
      have := ih (k := n)
      rwa [List.set_eq_of_length_le (by simp), List.set_eq_of_length_le (by simp)] at this
    | succ k => exact ⟨by omega, ih⟩

theorem stretch_mesh {o : Order} {n k d : Nat} {idx s : List Nat} (hk : k < n) (hn : s.length = n) (hi : InRange idx s)
    (hd : s.getD k 1 = d) : stretchIndex o ((List.replicate n 1).set k d) idx = (List.replicate n 0).set k (idx.getD k 0) := by
  have hl := hi.length_eq
  have hal : stretchIndex o ((List.replicate n 1).set k d) idx =
      List.zipWith (fun d i => if d = 1 then 0 else i) ((List.replicate n 1).set k d) idx := by
    unfold stretchIndex
    cases o
    · simp [hl, hn]
    · dsimp only
      rw [List.take_of_length_le (by simp; omega)]
  rw [hal]
  apply List.ext_getElem?
  intro j
  rw [List.getElem?_zipWith, List.getElem?_set, List.getElem?_set]
  by_cases hjk : k = j
  · subst hjk
    have hkl : k < idx.length := by omega
    have hlt := hi.getD (a := k) (by omega)
    rw [if_pos rfl, if_pos rfl, List.getElem?_eq_getElem hkl, List.getD_eq_getElem?_getD, List.getElem?_eq_getElem hkl]
    simp only [List.length_replicate, hk, if_true, Option.getD_some]
    have h2 : idx[k] < d := by
      have e : s.getD k 0 = s.getD k 1 := by
        rw [List.getD_eq_getElem?_getD, List.getD_eq_getElem?_getD, List.getElem?_eq_getElem (by omega)]
        rfl
      rw [e, hd, List.getD_eq_getElem?_getD, List.getElem?_eq_getElem hkl] at hlt
      exact hlt
    split
    · congr 1; omega
    · rfl
  · rw [if_neg hjk, if_neg hjk]
    by_cases hj : j < n
    · rw [List.getElem?_replicate, List.getElem?_replicate, if_pos hj, if_pos hj, List.getElem?_eq_getElem (by omega : j < idx.length)]
      rfl
    · rw [List.getElem?_replicate, List.getElem?_replicate, if_neg hj, if_neg hj]

/-- The shape of the grid. -/
def meshGridShape (xy : Bool) (lens : List Nat) : List Nat :=
  (List.range lens.length).map fun a => lens.getD (meshAxis xy a) 0

/-- Axis number counted from the aligned end. -/
def fromEnd (o : Order) (n k : Nat) : Nat := match o with | .C => n - 1 - k | .F => k

theorem axisAt_len {o : Order} {s : List Nat} {k : Nat} (hk : k < s.length) :
    axisAt o s k = s.getD (fromEnd o s.length k) 1 := by
  cases o
  · simp only [axisAt, List.getD_eq_getElem?_getD]
    rw [List.getElem?_reverse hk]
    rfl
  · rfl

theorem mesh_broadcast (o : Order) (xy : Bool) (lens : List Nat) (hn : 2 ≤ lens.length) :
    BroadcastOfAll o (lens.zipIdx.map fun p => (List.replicate lens.length 1).set (meshAxis xy p.2) p.1) (meshGridShape xy lens) := by
  have hl : (meshGridShape xy lens).length = lens.length := by simp [meshGridShape]
  have hg : ∀ a < lens.length, (meshGridShape xy lens).getD a 1 = lens.getD (meshAxis xy a) 0 := by
    intro a ha
    unfold meshGridShape
    rw [List.getD_eq_getElem?_getD, List.getElem?_map, List.getElem?_range ha]
    rfl
  have hmem : ∀ a, a ∈ (lens.zipIdx.map fun p => (List.replicate lens.length 1).set (meshAxis xy p.2) p.1) ↔
      ∃ i < lens.length, a = (List.replicate lens.length 1).set (meshAxis xy i) (lens.getD i 0) := by
    intro a
    simp only [List.mem_map, Prod.exists, List.mem_zipIdx_iff_getElem?]
    constructor
    · rintro ⟨d, i, h, rfl⟩
      obtain ⟨h1, h2⟩ := List.getElem?_eq_some_iff.1 h
      exact ⟨i, h1, by rw [List.getD_eq_getElem?_getD, h]; rfl⟩
    · rintro ⟨i, hi, rfl⟩
      exact ⟨lens.getD i 0, i, by rw [List.getD_eq_getElem?_getD, List.getElem?_eq_getElem hi]; rfl, rfl⟩
  have hset : ∀ i a d, i < lens.length → ((List.replicate lens.length 1).set (meshAxis xy i) d).getD a 1 =
      if meshAxis xy i = a then d else 1 := by
    intro i a d hi
    rw [List.getD_eq_getElem?_getD, List.getElem?_set]
    split
    · rename_i h
      subst h
      rw [List.length_replicate, if_pos (meshAxis_lt hn hi)]
      rfl
    · rw [List.getElem?_replicate]
      split <;> rfl
  refine ⟨?_, ?_, ?_⟩
  · intro a ha
    obtain ⟨i, hi, rfl⟩ := (hmem a).1 ha
    refine ⟨by simp [hl], fun k => ?_⟩
    by_cases hk : k < lens.length
    · rw [axisAt_len (by simpa using hk), axisAt_len (by rw [hl]; exact hk), hl, List.length_set, List.length_replicate, hset _ _ _ hi]
      have hb : fromEnd o lens.length k < lens.length := by unfold fromEnd; cases o <;> dsimp only <;> omega
      rw [hg _ hb]
      split
      · rename_i h
        rw [← h, meshAxis_invol]
        exact .inl rfl
      · exact .inr rfl
    · exact .inr (axisAt_ge (by simp; omega))
  · exact ⟨_, (hmem _).2 ⟨0, by omega, rfl⟩, by simp [hl]⟩
  · intro k
    by_cases hk : k < lens.length
    · have hb : fromEnd o lens.length k < lens.length := by unfold fromEnd; cases o <;> dsimp only <;> omega
      refine ⟨_, (hmem _).2 ⟨meshAxis xy (fromEnd o lens.length k), meshAxis_lt hn hb, rfl⟩, ?_⟩
      rw [axisAt_len (by rw [hl]; exact hk), axisAt_len (by simpa using hk), hl, List.length_set, List.length_replicate,
        hset _ _ _ (meshAxis_lt hn hb), hg _ hb, if_pos (meshAxis_invol _ _)]
    · refine ⟨_, (hmem _).2 ⟨0, by omega, rfl⟩, ?_⟩
      rw [axisAt_ge (by rw [hl]; omega), axisAt_ge (by simp; omega)]

theorem changeShape_subst (a : Tensor α) {sh : List Int} {out : List Nat} (h : substituteNegatives sh a.layout.size = .ok out)
    (o : Order) (copy : Option Bool) : a.changeShape sh o copy = a.changeShape (out.map Int.ofNat) o copy := by
  unfold Tensor.changeShape
  rw [h, subst_self]

theorem broadcastArrays_ok {ls : List Layout} {o : Order} {s : List Nat} (hn : 2 ≤ ls.length)
    (hs : BroadcastOfAll o (ls.map Layout.shape) s) :
    broadcastArrays ls o = ls.mapM fun m => m.broadcastTo s o := by
  match ls, hn with
  | l :: l' :: rest, _ =>
    have hf : (l' :: rest).foldlM (fun result (m : Layout) =>
        (do return (← broadcastShape m.shape result o).1 : Res (List Nat))) l.shape =
        ((l' :: rest).map Layout.shape).foldlM (fun result shape =>
        (do return (← broadcastShape shape result o).1 : Res (List Nat))) l.shape := by
      generalize l.shape = acc
      induction (l' :: rest) generalizing acc with
      | nil => rfl
      | cons x xs ih =>
        simp only [List.map_cons, List.foldlM_cons]
        congr 1
        funext r
        exact ih r
    have := (foldShapes_iff (broadcastOfAll_single o l.shape)).2 hs
    simp only [broadcastArrays]
    rw [hf, List.map_cons, this, ok_bind]

theorem broadcastTo_self {l : Layout} {s : List Nat} {o : Order} (h1 : l.shape.length ≤ s.length)
    (h2 : ∀ k, axisAt o l.shape k = axisAt o s k ∨ axisAt o l.shape k = 1) : ∃ m, l.broadcastTo s o = .ok m :=
  (C17_broadcast_to_iff l s o).2 ⟨by omega, fun k _ => ⟨h2 k, .inl rfl, .inr rfl⟩⟩

/-- One step of `meshgrid`: the input as a column on its own axis. -/
theorem mesh_one (dflt dev : Order) {t : Tensor α} (ht : t.WF) {n i d : Nat} {xy : Bool} (hi : meshAxis xy i < n)
    (hs : t.layout.shape = [d]) :
    ∃ u, (t.changeShape (Tensor.meshShape n i xy) dev none >>= fun r => r.intoOwned dflt) = .ok u ∧ u.WF ∧
      u.layout.shape = (List.replicate n 1).set (meshAxis xy i) d ∧
      ∀ q < d, ∃ x, t.arr.elem [q] = some x ∧ u.arr.elem ((List.replicate n 0).set (meshAxis xy i) q) = some x := by
  have hsz : t.layout.size = d := by unfold Layout.size; rw [hs]; simp
  have hprod : ((List.replicate n 1).set (meshAxis xy i) d).prod = d := by
    rw [set_replicate hi, List.prod_append, List.prod_cons, prod_ones, prod_ones]; simp
  obtain ⟨c, h1, h2, h3, h4⟩ := C21_reshape t ht ((List.replicate n 1).set (meshAxis xy i) d) dev none (by simp) (by
    show t.layout.shape.prod = _
    rw [hprod, hs]; simp)
  obtain ⟨u, k1, k2, k3, -⟩ := C35_into_owned dflt c h2
  refine ⟨u, ?_, k2, k3.1.trans h3, ?_⟩
  · rw [changeShape_subst t (by rw [meshShape_eq, subst_mesh hi, hsz]), h1, ok_bind, k1]
  · intro q hq
    obtain ⟨x, e1, e2⟩ := h4.2 [q] ((List.replicate n 0).set (meshAxis xy i) q) (by
      show InRange _ t.layout.shape
      rw [hs]; exact ⟨hq, trivial⟩) (by rw [h3]; exact inRange_mesh hq) (by
      have hs' : t.arr.shape = [d] := hs
      rw [h3, hs']
      cases dev
      · show rankC _ _ = rankC _ _
        rw [rankC_mesh hi]; simp [rankC]
      · show rankF _ _ = rankF _ _
        rw [rankF_mesh hi]; simp [rankF])
    obtain ⟨y, f1, f2⟩ := k3.2 _ (by rw [h3]; exact inRange_mesh (k := meshAxis xy i) (n := n) hq)
    rw [e2] at f1
    cases f1
    exact ⟨x, e1, f2⟩

/-- `meshgrid(ts, indexing, copy)` of two or more vectors: one tensor per input. All have the grid shape,
whose axis `meshAxis i` has the length of input `i`, and the element of tensor `i` at a grid index is the
element of input `i` at the coordinate on its axis. -/
theorem C54_meshgrid (dflt dev : Order) (ts : List (Tensor α)) (xy copy : Bool) (hn : 2 ≤ ts.length)
    (hwf : ∀ t ∈ ts, t.WF) (hts : ∀ t ∈ ts, t.arr.shape.length = 1) :
    ∃ us, Tensor.meshgrid dflt dev ts (if xy then "xy" else "ij") copy = .ok us ∧ us.length = ts.length ∧
      ∀ (i : Nat) (t u : Tensor α), ts[i]? = some t → us[i]? = some u →
        u.WF ∧ u.arr.shape.length = ts.length ∧
        (∀ (j : Nat) (t' : Tensor α), ts[j]? = some t' → u.arr.shape[meshAxis xy j]? = t'.arr.shape[0]?) ∧
        ∀ idx, InRange idx u.arr.shape →
          ∃ x, t.arr.elem [idx.getD (meshAxis xy i) 0] = some x ∧ u.arr.elem idx = some x := by
  have hts : ∀ t ∈ ts, t.layout.shape = [axLen 0 t] := by
    intro t ht
    have h : t.layout.shape.length = 1 := hts t ht
    unfold axLen
    generalize t.layout.shape = s at h
    match s, h with
    | [d], _ => rfl
  -- every input as a column
  have hex : ∀ p : Tensor α × Nat, ∃ u : Tensor α, p ∈ ts.zipIdx →
      (p.1.changeShape (Tensor.meshShape ts.length p.2 xy) dev none >>= fun r => r.intoOwned dflt) = .ok u ∧ u.WF ∧
      u.layout.shape = (List.replicate ts.length 1).set (meshAxis xy p.2) (axLen 0 p.1) ∧
      ∀ q < axLen 0 p.1, ∃ x, p.1.arr.elem [q] = some x ∧
        u.arr.elem ((List.replicate ts.length 0).set (meshAxis xy p.2) q) = some x := by
    intro p
    by_cases hp : p ∈ ts.zipIdx
    · have h1 := List.mem_zipIdx_iff_getElem?.1 hp
      have hm := List.mem_of_getElem? h1
      obtain ⟨u, h⟩ := mesh_one dflt dev (hwf _ hm) (n := ts.length) (i := p.2) (xy := xy)
        (meshAxis_lt hn (List.getElem?_eq_some_iff.1 h1).1) (hts _ hm)
      exact ⟨u, fun _ => h⟩
    · exact ⟨p.1, fun h => absurd h hp⟩
  choose g hg using hex
  -- the common shape
  have hS := mesh_broadcast dev xy (ts.map (axLen 0)) (by simpa using hn)
  have hshapes : ((ts.zipIdx.map g).map (·.layout)).map Layout.shape =
      ((ts.map (axLen 0)).zipIdx.map fun p => (List.replicate (ts.map (axLen 0)).length 1).set (meshAxis xy p.2) p.1) := by
    rw [List.map_map, List.map_map, List.zipIdx_map, List.map_map]
    apply List.map_congr_left
    intro p hp
    simp only [Function.comp, List.length_map]
    exact (hg p hp).2.2.1
  have hSl : (meshGridShape xy (ts.map (axLen 0))).length = ts.length := by simp [meshGridShape]
  have hSg : ∀ (j : Nat) (t' : Tensor α), ts[j]? = some t' →
      (meshGridShape xy (ts.map (axLen 0)))[meshAxis xy j]? = some (axLen 0 t') := by
    intro j t' hj
    have hlt := (List.getElem?_eq_some_iff.1 hj).1
    unfold meshGridShape
    rw [List.getElem?_map, List.getElem?_range (by rw [List.length_map]; exact meshAxis_lt hn hlt)]
    simp [meshAxis_invol, hj]
  generalize hSd : meshGridShape xy (ts.map (axLen 0)) = S at *
  rw [← hshapes] at hS
  have hb := broadcastArrays_ok (ls := (ts.zipIdx.map g).map (·.layout)) (by simpa using hn) hS
  have hbt : ∀ p : Tensor α × Nat, ∃ v : Tensor α, p ∈ ts.zipIdx → (g p).layout.broadcastTo S dev = .ok v.layout ∧ v.data = (g p).data ∧
      v.WF ∧ v.layout.shape = S ∧ ∀ idx, InRange idx S →
        ∃ x, p.1.arr.elem [idx.getD (meshAxis xy p.2) 0] = some x ∧ v.arr.elem idx = some x := by
    intro p
    by_cases hp : p ∈ ts.zipIdx
    · obtain ⟨-, hW, hsh, hel⟩ := hg p hp
      have h1 := List.mem_zipIdx_iff_getElem?.1 hp
      have hi := (List.getElem?_eq_some_iff.1 h1).1
      obtain ⟨m, hm⟩ := broadcastTo_self (l := (g p).layout) (s := S) (o := dev)
        (hS.1 _ (List.mem_map_of_mem (List.mem_map_of_mem (List.mem_map_of_mem hp)))).1
        (hS.1 _ (List.mem_map_of_mem (List.mem_map_of_mem (List.mem_map_of_mem hp)))).2
      obtain ⟨e1, e2⟩ := C17_broadcast_to _ m S dev hm
      obtain ⟨e3, e4⟩ := C17_broadcast_to_valid _ m S dev hm hW.fit.valid hW.1
      obtain ⟨e5, e6⟩ := keeps_broadcastTo S dev _ m ((valid_iff.1 hW.fit.valid).good hW.1) hm
      refine ⟨⟨(g p).data, m⟩, fun _ => ⟨hm, rfl, ?_, e1, ?_⟩⟩
      · refine wf_of_sub hW e5 e6 (by rw [e4]; exact hW.1) fun _ => ?_
        obtain ⟨-, -, -, -, h⟩ := WF_bounds hW
        rw [e4]; exact h
      · intro idx hidx
        obtain ⟨-, f2⟩ := e2 idx hidx
        have hSp := hSg p.2 p.1 h1
        rw [hsh, stretch_mesh (meshAxis_lt hn hi) hSl hidx (by rw [List.getD_eq_getElem?_getD, hSp]; rfl)] at f2
        have hlt := hidx.getD (a := meshAxis xy p.2) (by rw [hSl]; exact meshAxis_lt hn hi)
        rw [List.getD_eq_getElem?_getD (l := S), hSp] at hlt
        obtain ⟨x, x1, x2⟩ := hel _ hlt
        exact ⟨x, x1, (elem_congr f2).trans x2⟩
    · exact ⟨p.1, fun h => absurd h hp⟩
  choose w hw using hbt
  have hmesh : Tensor.meshgrid dflt dev ts (if xy then "xy" else "ij") copy =
      if copy then (ts.zipIdx.map w).mapM fun v => v.changeContig dflt dev else .ok (ts.zipIdx.map w) := by
    have hxy : decide ((if xy then "xy" else "ij") = "xy") = xy := by cases xy <;> decide
    obtain ⟨t0, t1, rest, rfl⟩ : ∃ t0 t1 rest, ts = t0 :: t1 :: rest := by
      match ts, hn with
      | t0 :: t1 :: rest, _ => exact ⟨t0, t1, rest, rfl⟩
    · simp only [Tensor.meshgrid, hxy]
      rw [if_neg (by cases xy <;> decide), if_neg]
      · rw [mapM_eq_map (f := fun p : Tensor α × Nat => p.1.changeShape (Tensor.meshShape (t0 :: t1 :: rest).length p.2 xy) dev none >>=
          fun r => r.intoOwned dflt) (g := g) fun p hp => (hg p hp).1, ok_bind, hb]
        rw [List.map_map, List.mapM_map]
        rw [mapM_eq_map (f := (fun m : Layout => m.broadcastTo S dev) ∘ (fun x : Tensor α => x.layout) ∘ g) (g := fun p => (w p).layout) fun p hp => (hw p hp).1, ok_bind]
        have hz : List.zipWith (fun u l => (⟨u.data, l⟩ : Tensor α)) ((t0 :: t1 :: rest).zipIdx.map g)
            ((t0 :: t1 :: rest).zipIdx.map fun p => (w p).layout) = (t0 :: t1 :: rest).zipIdx.map w := by
          rw [List.zipWith_map, List.zipWith_self]
          apply List.map_congr_left
          intro p hp
          rw [← (hw p hp).2.1]
        rw [hz]
      · simp only [List.any_eq_true, not_exists, not_and, decide_eq_true_eq, not_not]
        intro t ht
        have := congrArg List.length (hts t ht)
        simpa [Layout.shape, Layout.ndim] using this
  have hgoal : ∀ (p : Tensor α × Nat) (u : Tensor α), p ∈ ts.zipIdx → u.WF → (w p).arr.Same u.arr →
      u.WF ∧ u.arr.shape.length = ts.length ∧
        (∀ (j : Nat) (t' : Tensor α), ts[j]? = some t' → u.arr.shape[meshAxis xy j]? = t'.arr.shape[0]?) ∧
        ∀ idx, InRange idx u.arr.shape →
          ∃ x, p.1.arr.elem [idx.getD (meshAxis xy p.2) 0] = some x ∧ u.arr.elem idx = some x := by
    intro p u hp hu hsame
    obtain ⟨-, -, -, h4, h5⟩ := hw p hp
    have hsh : u.arr.shape = S := hsame.1.trans h4
    rw [hsh]
    refine ⟨hu, hSl, ?_, ?_⟩
    · intro j t' hj
      rw [hSg j t' hj]
      show _ = t'.layout.shape[0]?
      rw [hts t' (List.mem_of_getElem? hj)]
      rfl
    · intro idx hidx
      obtain ⟨x, x1, x2⟩ := h5 idx hidx
      obtain ⟨y, y1, y2⟩ := hsame.2 idx (by
        show InRange idx (w p).layout.shape
        rw [h4]; exact hidx)
      rw [x2] at y1
      cases y1
      exact ⟨x, x1, y2⟩
  have hget : ∀ (i : Nat) (t : Tensor α), ts[i]? = some t → (t, i) ∈ ts.zipIdx ∧ ts.zipIdx[i]? = some (t, i) := by
    intro i t h
    exact ⟨List.mem_zipIdx_iff_getElem?.2 h, by rw [List.getElem?_zipIdx, h]; simp⟩
  rw [hmesh]
  cases copy
  · refine ⟨ts.zipIdx.map w, rfl, by simp, ?_⟩
    intro i t u ht hu
    obtain ⟨h1, h2⟩ := hget i t ht
    rw [List.getElem?_map, h2] at hu
    cases hu
    have hW := (hw _ h1).2.2.1
    exact hgoal (t, i) _ h1 hW ⟨rfl, fun idx hi => by obtain ⟨x, -, hx⟩ := hW.get hi; exact ⟨x, hx, hx⟩⟩
  · have hc : ∀ p : Tensor α × Nat, ∃ c : Tensor α, p ∈ ts.zipIdx → (w p).changeContig dflt dev = .ok c ∧ c.WF ∧ (w p).arr.Same c.arr := by
      intro p
      by_cases hp : p ∈ ts.zipIdx
      · obtain ⟨c, h1, h2, h3, -⟩ := C35_to_contig dflt (w p) (hw p hp).2.2.1 dev
        exact ⟨c, fun _ => ⟨h1, h2, h3⟩⟩
      · exact ⟨p.1, fun h => absurd h hp⟩
    choose c hc using hc
    refine ⟨ts.zipIdx.map c, ?_, by simp, ?_⟩
    · simp only [if_true]
      rw [List.mapM_map]
      exact mapM_eq_map fun p hp => (hc p hp).1
    · intro i t u ht hu
      obtain ⟨h1, h2⟩ := hget i t ht
      rw [List.getElem?_map, h2] at hu
      cases hu
      exact hgoal (t, i) _ h1 (hc _ h1).2.1 (hc _ h1).2.2

/-- One vector gives itself, no vector gives nothing. -/
theorem C54_meshgrid_short (dflt dev : Order) (t : Tensor α) (xy copy : Bool) (ht : t.WF) (hs : t.arr.shape.length = 1) :
    Tensor.meshgrid dflt dev ([] : List (Tensor α)) (if xy then "xy" else "ij") copy = .ok [] ∧
    ∃ u, Tensor.meshgrid dflt dev [t] (if xy then "xy" else "ij") copy = .ok [u] ∧ u.WF ∧ t.arr.Same u.arr := by
  have nd : t.layout.ndim = t.arr.shape.length := by simp [Layout.ndim, Layout.shape, Tensor.arr]
  obtain ⟨u, h1, h2, h3, -⟩ := C35_into_owned dflt t ht
  refine ⟨?_, u, ?_, h2, h3⟩
  · simp only [Tensor.meshgrid]
    rw [if_neg (by cases xy <;> decide)]
  · simp only [Tensor.meshgrid]
    rw [if_neg (by cases xy <;> decide), if_neg (by omega), h1]
    rfl

/-- Another convention, or an input that is not a vector, is refused. -/
theorem C54_meshgrid_rejects (dflt dev : Order) (ts : List (Tensor α)) (indexing : String) (copy : Bool) :
    (indexing ≠ "ij" → indexing ≠ "xy" → Tensor.meshgrid dflt dev ts indexing copy = .error .invalidValue) ∧
    (indexing = "ij" ∨ indexing = "xy" → (∃ t ∈ ts, t.arr.shape.length ≠ 1) →
      Tensor.meshgrid dflt dev ts indexing copy = .error .invalidLayout) := by
  have nd : ∀ t : Tensor α, t.layout.ndim = t.arr.shape.length := by intro t; simp [Layout.ndim, Layout.shape, Tensor.arr]
  constructor
  · intro h1 h2
    unfold Tensor.meshgrid
    rw [if_pos ⟨h1, h2⟩]
  · rintro h ⟨t, ht, hne⟩
    unfold Tensor.meshgrid
    rw [if_neg (by rintro ⟨h1, h2⟩; exact h.elim h1 h2)]
    match ts, ht with
    | [t'], ht =>
      simp only [List.mem_singleton] at ht
      subst ht
      simp only
      rw [if_pos (by rw [nd]; exact hne)]
    | t0 :: t1 :: rest, ht =>
      simp only
      rw [if_pos]
      simp only [List.any_eq_true, decide_eq_true_eq]
      exact ⟨t, ht, by rw [nd]; exact hne⟩

end

example : ∃ us, Tensor.meshgrid .C .C [(⟨[1, 2, 3], ⟨[⟨3, 1⟩], 0⟩⟩ : Tensor Int), ⟨[4, 5], ⟨[⟨2, -1⟩], 1⟩⟩] "xy" true = .ok us ∧
    us.map (·.layout.shape) = [[2, 3], [2, 3]] ∧ us.map (·.data) = [[1, 2, 3, 1, 2, 3], [5, 5, 5, 4, 4, 4]] := ⟨_, rfl, by decide, rfl⟩
example : ∃ us, Tensor.meshgrid .C .C [(⟨[1, 2, 3], ⟨[⟨3, 1⟩], 0⟩⟩ : Tensor Int), ⟨[4, 5], ⟨[⟨2, -1⟩], 1⟩⟩] "ij" false = .ok us ∧
    us.map (·.layout.shape) = [[3, 2], [3, 2]] := ⟨_, rfl, by decide⟩

end Rstsr
