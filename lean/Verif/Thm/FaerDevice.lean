import Verif.Model.FaerDevice
import Verif.Thm.FaerSvd
/-!
# Theorems on the device of `faer` around the computations (C85)
-/
namespace Rstsr
open Spec Matrix

section
variable {𝕜 α ρ β : Type} [RCLike 𝕜]

/-! ## The global number of threads -/

/-- One call to its end. -/
def FaerCall.alone (c : FaerCall β) (g : Nat) : List ParState × Nat := runFaer [c] [0, 0, 0, 0] ([.start], g)

/-- A call that succeeds, while no other one is under way, leaves the setting as it was. -/
theorem C85_success_partial (c : FaerCall β) (g : Nat) (h : ∃ x, c.body = .ok x) : c.alone g = ([⟨.done, g⟩], g) := by
  obtain ⟨x, h⟩ := h
  obtain ⟨pool, body⟩ := c
  simp only at h
  subst h
  cases pool <;> rfl

/-- So do any number of them, one after the other. -/
theorem C85_sequence_partial (cs : List (FaerCall β)) (h : ∀ c ∈ cs, ∃ x, c.body = .ok x) (g : Nat) : cs.foldl (fun g c => (c.alone g).2) g = g := by
  induction cs generalizing g with
  | nil => rfl
  | cons c cs ih =>
    rw [List.foldl_cons, C85_success_partial c g (h c (by simp))]
    exact ih (fun d hd => h d (by simp [hd])) g

/-- Calls from worker threads never change it, under every schedule, successful or not. -/
theorem C85_workers (cs : List (FaerCall β)) (h : ∀ c ∈ cs, c.pool = none) (sched : List Nat) (ss : List ParState) (g : Nat) :
    (runFaer cs sched (ss, g)).2 = g := by
  induction sched generalizing ss with
  | nil => rfl
  | cons k rest ih =>
    unfold runFaer
    split
    · rename_i c s hc hs
      have hp := h c (List.mem_of_getElem? hc)
      have : (c.step s g).2 = g := by
        unfold FaerCall.step
        split <;> simp [hp]
      simp only
      rw [this]
      exact ih _
    · exact ih _

/-- A call that fails leaves the number of threads of its pool behind. -/
theorem C85_false_error (c : FaerCall β) (g k : Nat) (e : Err) (h : c.body = .error e) (hp : c.pool = some k) : c.alone g = ([⟨.done, g⟩], k) := by
  obtain ⟨pool, body⟩ := c
  simp only at h hp
  subst h hp
  rfl

/-- Two successful calls in two threads: all are done, and the setting is not what it was. -/
theorem C85_false_race (g k : Nat) (x : β) : runFaer [⟨some k, .ok x⟩, ⟨some k, .ok x⟩] [0, 0, 1, 1, 0, 0, 1, 1] ([.start, .start], g) =
    ([⟨.done, g⟩, ⟨.done, k⟩], k) := rfl

/-! ## The devices of the results -/

/-- `eigvalsh` and `svdvals` give tensors on the device of the argument. -/
theorem C85_device_partial (lib : FaerLib α ρ) (dev : FaerDev) (a : Tensor α) (uplo : Option UpLo) :
    (∀ r, faerEigvalsh lib dev a uplo = .ok r → r.dev = dev) ∧ (∀ r, faerSvdvals lib dev a = .ok r → r.dev = dev) := by
  constructor
  · intro r h
    unfold faerEigvalsh at h
    split at h
    · cases h
    · obtain ⟨_, -, h⟩ := bind_ok.1 h
      obtain ⟨_, -, h⟩ := bind_ok.1 h
      obtain ⟨_, -, h⟩ := bind_ok.1 h
      cases h
      rfl
  · intro r h
    unfold faerSvdvals at h
    split at h
    · cases h
    · obtain ⟨_, -, h⟩ := bind_ok.1 h
      obtain ⟨_, -, h⟩ := bind_ok.1 h
      cases h
      rfl

theorem contigOut_dev {mem : FaerMem α} {sys order : Order} {m n : Nat} {M : Matrix (Fin m) (Fin n) α} {r : OnDev α} (h : contigOut mem sys order M = .ok r) :
    r.dev = .dflt sys := by
  unfold contigOut at h
  obtain ⟨_, -, h⟩ := bind_ok.1 h
  obtain ⟨_, -, h⟩ := bind_ok.1 h
  cases h
  rfl

/-- `same_device` is equality. -/
theorem FaerDev.same_iff {d e : FaerDev} : d.same e = true ↔ d = e := by
  obtain ⟨o, t⟩ := d
  obtain ⟨o', t'⟩ := e
  simp [FaerDev.same, and_comm]

/-- The results of Cholesky, inverse, eigenvectors and singular vectors are not on the device of the argument, unless it is the default one. -/
theorem C85_false_device [Star α] (lib : FaerLib α ρ) (mem : FaerMem α) (sys : Order) (dev : FaerDev) (hd : dev ≠ .dflt sys) (a : Tensor α)
    (uplo : Option UpLo) (full : Bool) :
    (∀ r, faerCholesky lib mem sys dev a uplo = .ok r → dev.same r.dev = false) ∧ (∀ r, faerInv lib mem sys dev a = .ok r → dev.same r.dev = false) ∧
      (∀ w v, faerEigh lib mem sys dev a uplo = .ok (w, v) → dev.same w.dev = false ∧ dev.same v.dev = false) ∧
      ∀ u s v, faerSvd lib mem sys dev a full = .ok (u, s, v) → dev.same u.dev = false ∧ dev.same s.dev = false ∧ dev.same v.dev = false := by
  have hs : dev.same (.dflt sys) = false := by
    rw [Bool.eq_false_iff, ne_eq, FaerDev.same_iff]; exact hd
  refine ⟨fun r h => ?_, fun r h => ?_, fun w v h => ?_, fun u s v h => ?_⟩
  · unfold faerCholesky at h
    split at h
    · cases h
    · obtain ⟨_, -, h⟩ := bind_ok.1 h
      obtain ⟨_, -, h⟩ := bind_ok.1 h
      obtain ⟨_, -, h⟩ := bind_ok.1 h
      rw [contigOut_dev h, hs]
  · unfold faerInv at h
    split at h
    · cases h
    · obtain ⟨_, -, h⟩ := bind_ok.1 h
      obtain ⟨_, -, h⟩ := bind_ok.1 h
      rw [contigOut_dev h, hs]
  · unfold faerEigh at h
    split at h
    · cases h
    · obtain ⟨_, -, h⟩ := bind_ok.1 h
      obtain ⟨_, -, h⟩ := bind_ok.1 h
      obtain ⟨_, -, h⟩ := bind_ok.1 h
      obtain ⟨w', hw, h⟩ := bind_ok.1 h
      obtain ⟨v', hv, h⟩ := bind_ok.1 h
      obtain ⟨_, -, h⟩ := bind_ok.1 h
      rw [realsOut_eq] at hw
      cases hw
      cases h
      exact ⟨hs, by show dev.same v'.dev = false; rw [contigOut_dev hv, hs]⟩
  · unfold faerSvd at h
    split at h
    · cases h
    · obtain ⟨_, -, h⟩ := bind_ok.1 h
      obtain ⟨_, -, h⟩ := bind_ok.1 h
      obtain ⟨_, -, h⟩ := bind_ok.1 h
      obtain ⟨_, -, h⟩ := bind_ok.1 h
      obtain ⟨_, -, h⟩ := bind_ok.1 h
      obtain ⟨_, -, h⟩ := bind_ok.1 h
      obtain ⟨_, -, h⟩ := bind_ok.1 h
      obtain ⟨_, -, h⟩ := bind_ok.1 h
      obtain ⟨_, -, h⟩ := bind_ok.1 h
      cases h
      exact ⟨hs, hs, hs⟩

/-! ## Conversions -/

theorem loSum_nonneg {axes : List Axis} (h : ∀ x ∈ axes, 0 ≤ x.str) : 0 ≤ loSum axes := by
  induction axes with
  | nil => simp [loSum]
  | cons x xs ih =>
    have := ih fun y hy => h y (by simp [hy])
    have hx := h x (by simp)
    unfold loSum
    split
    · omega
    · have : x.str = 0 := by omega
      rw [this]; omega

/-- A matrix with no negative stride keeps its elements through `faer` and back. -/
theorem C85_convert_partial (sys : Order) (a : Tensor α) (ha : a.WF) {m n : Nat} (A : Matrix (Fin m) (Fin n) α) (hA : a.arr.IsMat A)
    (hs : ∀ x ∈ a.layout.axes, 0 ≤ x.str) (hoff : m = 0 ∨ n = 0 → a.layout.offset ≤ a.data.length) :
    ∃ r, thereAndBack sys a = .ok r ∧ r.t.WF ∧ r.t.arr.IsMat A := by
  obtain ⟨s0, s1, hax⟩ := axes2 (l := a.layout) hA.1
  have hacc : Accepted ⟨[⟨m, s0⟩, ⟨n, s1⟩], 0⟩ := by
    rw [accepted_iff]
    rcases accepted_iff.1 ha.good.accepted with h | h | h
    · rw [hax] at h; cases h
    · rw [hax] at h; exact .inr (.inl h)
    · rw [hax] at h hs
      exact .inr (.inr ⟨by have := loSum_nonneg hs; simpa using this, h.2⟩)
  have h0 := ha.1
  have hget : ∀ (i : Fin m) (j : Fin n), a.data[a.layout.offset.toNat + ((i : Int) * s0 + (j : Int) * s1).toNat]? = some (A i j) := fun i j => by
    rw [← isMat_get ha hA i j]
    congr 1
    have e : a.layout.addr [(i : Nat), (j : Nat)] = a.layout.offset + ((i : Int) * s0 + (j : Int) * s1) := by
      rw [addr_eq, hax]; simp [dot]
    have p0 : 0 ≤ (i : Int) * s0 := mul_nonneg (by omega) (hs ⟨m, s0⟩ (by rw [hax]; simp))
    have p1 : 0 ≤ (j : Int) * s1 := mul_nonneg (by omega) (hs ⟨n, s1⟩ (by rw [hax]; simp))
    show _ = (a.layout.addr [(i : Nat), (j : Nat)]).toNat
    rw [e]; omega
  have hp : a.layout.offset.toNat ≤ a.data.length := by
    by_cases h : m = 0 ∨ n = 0
    · have := hoff h; omega
    · have := List.getElem?_eq_some_iff.1 (hget ⟨0, by omega⟩ ⟨0, by omega⟩)
      obtain ⟨h, -⟩ := this
      omega
  obtain ⟨t, t1, t2, t3, -⟩ := matInto_ok hacc hp hget
  refine ⟨⟨t, .dflt sys⟩, ?_, t2, t3⟩
  unfold thereAndBack
  rw [hax]
  show (do return ⟨← matIntoRstsr a.data a.layout.offset.toNat m n s0 s1, .dflt sys⟩ : Res (OnDev α)) = _
  rw [t1]
  rfl

/-- With a negative one the way back panics. -/
theorem C85_false_negative (sys : Order) (a : Tensor α) {m n : Nat} (hA : a.arr.shape = [m, n]) (hm : m ≠ 0) (hn : n ≠ 0)
    (hs : ∃ x ∈ a.layout.axes, 1 < x.dim ∧ x.str < 0) : thereAndBack sys a = .error .panic := by
  obtain ⟨s0, s1, hax⟩ := axes2 (l := a.layout) hA
  have hneg : loSum [⟨m, s0⟩, ⟨n, s1⟩] < 0 := by
    rw [hax] at hs
    have part : ∀ (d : Nat) (k : Int), d ≠ 0 → (if k > 0 then 0 else k * ((d : Int) - 1)) ≤ 0 ∧ (1 < d → k < 0 → (if k > 0 then 0 else k * ((d : Int) - 1)) < 0) := by
      intro d k hd
      constructor
      · split
        · exact le_refl _
        · exact mul_nonpos_of_nonpos_of_nonneg (by omega) (by omega)
      · intro h1 h2
        rw [if_neg (by omega)]
        exact mul_neg_of_neg_of_pos h2 (by omega)
    have q0 := part m s0 hm
    have q1 := part n s1 hn
    simp only [loSum]
    obtain ⟨x, hx, h1, h2⟩ := hs
    simp only [List.mem_cons, List.not_mem_nil, or_false] at hx
    rcases hx with rfl | rfl
    · have := q0.2 h1 h2; omega
    · have := q1.2 h1 h2; omega
  have herr : ∃ e, Layout.newAxes [⟨m, s0⟩, ⟨n, s1⟩] 0 = .error e := by
    match h : Layout.newAxes [⟨m, s0⟩, ⟨n, s1⟩] 0 with
    | .error e => exact ⟨e, rfl⟩
    | .ok l =>
      rcases (newAxes_ok_iff.1 h).2 with h | h | h
      · cases h
      · simp [dims] at h; omega
      · omega
  obtain ⟨e, he⟩ := herr
  unfold thereAndBack matIntoRstsr
  rw [hax]
  show (do return ⟨← (do let l ← orPanic (Layout.newAxes [⟨m, s0⟩, ⟨n, s1⟩] 0); _), .dflt sys⟩ : Res (OnDev α)) = _
  rw [he]
  rfl

/-- Changing the device keeps shape and elements, and `to_device` and `change_device` the storage. -/
theorem C85_change (x : OnDev α) (dev : FaerDev) (hx : x.t.WF) :
    changeDevice x dev = .ok ⟨x.t, dev⟩ ∧ toDevice x dev = .ok ⟨x.t, dev⟩ ∧
      ∃ t, intoDevice x dev = .ok ⟨t, dev⟩ ∧ t.WF ∧ x.t.arr.Same t.arr ∧ t.data.length = x.t.arr.shape.prod := by
  have hch : ∀ y : OnDev α, y.t.WF → changeDevice y dev = .ok ⟨y.t, dev⟩ := fun y hy => by
    unfold changeDevice
    rw [hy.2]
    rfl
  obtain ⟨t, t1, t2, t3, t4⟩ := C35_into_owned x.dev.order x.t hx
  refine ⟨hch x hx, hch x hx, t, ?_, t2, t3, t4⟩
  unfold intoDevice
  rw [t1]
  exact hch ⟨t, x.dev⟩ t2

/-! ## The hypotheses are met -/

example := C85_success_partial (⟨some 4, .ok 7⟩ : FaerCall Nat) 16 ⟨7, rfl⟩
example := C85_sequence_partial [(⟨some 4, .ok 7⟩ : FaerCall Nat), ⟨none, .ok 1⟩] (by simp) 16
example := C85_workers [(⟨none, .ok 7⟩ : FaerCall Nat), ⟨none, .error .panic⟩] (by simp) [0, 1, 1, 0, 1, 0, 0] [.start, .start] 16

/-- Cholesky of a matrix that is not positive definite, on a device with two threads. -/
example : ∃ e, (⟨some 2, faerCholesky (faerLib ℝ) (faerMem ℝ) .C ⟨.F, 2⟩ symB.t none⟩ : FaerCall (OnDev ℝ)).alone 16 = ([⟨.done, 16⟩], 2) ∧
    faerCholesky (faerLib ℝ) (faerMem ℝ) .C ⟨.F, 2⟩ symB.t none = .error e := by
  obtain h := C82_cholesky_indefinite (faerLib ℝ) (faer_llt ℝ) (faerMem ℝ) .C ⟨.F, 2⟩ none .U rfl symB.t symB_ok.1.wf _ _ symB_mat.1 (fun _ _ _ => rfl)
    (symB_self true) symB_indefinite
  exact ⟨_, C85_false_error _ _ _ _ h rfl, h⟩

/-- Cholesky of a positive definite matrix on such a device: the result is on another one. -/
example : ∃ r, faerCholesky (faerLib ℂ) (faerMem ℂ) .C ⟨.C, 2⟩ symA.t none = .ok r ∧ (⟨.C, 2⟩ : FaerDev).same r.dev = false := by
  obtain ⟨r, _, h, -⟩ := C82_cholesky (faerLib ℂ) (faer_llt ℂ) (faerMem ℂ) (faerMem_fits ℂ) .C ⟨.C, 2⟩ none .L rfl symA.t symA_ok.wf _ _ symA_mat symA_tri symH_pos
  exact ⟨_, h, (C85_false_device (faerLib ℂ) (faerMem ℂ) .C ⟨.C, 2⟩ (by decide) symA.t none true).1 _ h⟩

/-- A matrix with gaps, in the middle of its storage. -/
def gapT : Tensor Nat := ⟨List.range 20, ⟨[⟨2, 2⟩, ⟨3, 5⟩], 4⟩⟩
example := C85_convert_partial .C gapT ⟨by decide, rfl⟩ (m := 2) (n := 3) (fun i j => 4 + 2 * i + 5 * j) ⟨rfl, by decide⟩ (by decide) (by decide)
example : thereAndBack .C gapT = .ok ⟨⟨(List.range 13).map (· + 4), ⟨[⟨2, 2⟩, ⟨3, 5⟩], 0⟩⟩, .dflt .C⟩ := rfl
example := C85_false_negative .C (⟨List.range 6, ⟨[⟨2, -3⟩, ⟨3, 1⟩], 3⟩⟩ : Tensor Nat) (m := 2) (n := 3) rfl (by decide) (by decide) ⟨⟨2, -3⟩, by simp, by decide⟩
example := C85_change ⟨gapT, .dflt .C⟩ ⟨.F, 3⟩ ⟨by decide, rfl⟩

end
end Rstsr
