import Verif.Props.Rounded
import Mathlib.Algebra.Order.BigOperators.Group.List
set_option linter.unusedSectionVars false
/-
Property C86: rows of the weight matrix in rounded arithmetic, for every order of summation.
-/
namespace Geo
variable {K : Type} [Field K] [LinearOrder K] [IsStrictOrderedRing K]
variable {env : Env K} {a : Arith K}

/-- What is asked of the arguments of a row: known kernels, distances and bandwidths that are
not negative. -/
def RowDim.Ok (t : RowDim K) : Prop :=
  t.kernel ∈ kernelTypeEnum ∧ 0 ≤ t.bw ∧ ∀ j, 0 ≤ t.dist j

theorem kernelR_float (he : env.Ok) (ha : a.Ok) (hf : ∀ x ≤ 0, a.Float (env.exp x)) (lazy : Bool)
    {name : String} (hn : name ∈ kernelTypeEnum) {d b : K} (hd : 0 ≤ d) (hb : 0 ≤ b) {w : K}
    (hw : kernelWeightR env a lazy name d b = .ok (.fin w)) : a.Float w := by
  by_cases hc : name ∈ compactKernels
  · rcases lt_or_ge b d with h | h
    · rw [kernelR_beyond ha lazy hc hb h] at hw
      cases hw
      exact ha.op.zero
    · obtain ⟨y, _, h0, h1, hv⟩ := kernelR_inside (env := env) ha lazy hc hd h
      rw [hv] at hw
      cases hw
      exact shapeR_float ha name h0 h1
  · rw [kernelR_tail lazy hn hc] at hw
    have := tailR_float he ha hf name (ndR_nonneg (env := env) ha hd hb)
    rw [Except.ok.inj hw] at this
    exact this

/-- one rounded product -/
abbrev mulR (a : Arith K) : Num K → Num K → Num K := fun x y => Num.rnd a.op (.mul x y)

theorem mulR_fin (ha : a.Ok) {x y : K} (x0 : 0 ≤ x) (x1 : x ≤ 1) (y0 : 0 ≤ y) (y1 : y ≤ 1) :
    ∃ v, mulR a (.fin x) (.fin y) = .fin v ∧ 0 ≤ v ∧ v ≤ 1 ∧ a.Float v := by
  have := ha.op.fin_of_unit (mul_nonneg x0 y0) (by nlinarith)
  exact ⟨_, this.1, this.2.1, this.2.2, ha.op_float _ _ this.1⟩

theorem foldR_spec (ha : a.Ok) (ws : List K) (hu : ∀ w ∈ ws, 0 ≤ w ∧ w ≤ 1) (x : K) (x0 : 0 ≤ x)
    (x1 : x ≤ 1) (hx : a.Float x) :
    ∃ v, (ws.map Num.fin).foldl (mulR a) (.fin x) = .fin v ∧ 0 ≤ v ∧ v ≤ 1 ∧ a.Float v ∧
      (x = 0 ∨ 0 ∈ ws → v = 0) ∧ (x = 1 → (∀ w ∈ ws, w = 1) → v = 1) := by
  induction ws generalizing x with
  | nil => exact ⟨x, rfl, x0, x1, hx, by simp, fun h _ => h⟩
  | cons w ws ih =>
    have hw := hu w (by simp)
    obtain ⟨y, hy, y0, y1, yf⟩ := mulR_fin ha x0 x1 hw.1 hw.2
    obtain ⟨v, hv, v0, v1, vf, hz, ho⟩ := ih (fun u hu' => hu u (by simp [hu'])) y y0 y1 yf
    have hy0 : ∀ z, x * w = z → a.op z = .fin z → y = z := by
      intro z hz hf
      have : mulR a (.fin x) (.fin w) = a.op (x * w) := rfl
      rw [this, hz, hf] at hy
      exact (Num.fin.inj hy).symm
    refine ⟨v, ?_, v0, v1, vf, ?_, ?_⟩
    · rw [List.map_cons, List.foldl_cons, hy, hv]
    · rintro (h | h)
      · exact hz (.inl (hy0 0 (by rw [h, zero_mul]) ha.op.zero))
      · rcases List.mem_cons.1 h with h | h
        · exact hz (.inl (hy0 0 (by rw [← h, mul_zero]) ha.op.zero))
        · exact hz (.inr h)
    · intro h h'
      exact ho (hy0 1 (by rw [h, h' w (by simp), mul_one]) ha.op.one)
        (fun u hu' => h' u (by simp [hu']))

theorem foldR_mono (ha : a.Ok) (ws vs : List K) (h : List.Forall₂ (fun w v => w ≤ v) ws vs)
    (hu : ∀ w ∈ ws, 0 ≤ w ∧ w ≤ 1) (hv : ∀ v ∈ vs, 0 ≤ v ∧ v ≤ 1) (x y : K) (x0 : 0 ≤ x)
    (xy : x ≤ y) (y1 : y ≤ 1) (w v : K)
    (hw : (ws.map Num.fin).foldl (mulR a) (.fin x) = .fin w)
    (hv' : (vs.map Num.fin).foldl (mulR a) (.fin y) = .fin v) : w ≤ v := by
  induction h generalizing x y with
  | nil =>
    cases hw; cases hv'
    exact xy
  | @cons p q ws vs hpq _ ih =>
    have hp := hu p (by simp)
    have hq := hv q (by simp)
    obtain ⟨x', hx', x0', _, _⟩ := mulR_fin ha x0 (xy.trans y1) hp.1 hp.2
    obtain ⟨y', hy', _, y1', _⟩ := mulR_fin ha (x0.trans xy) y1 hq.1 hq.2
    rw [List.map_cons, List.foldl_cons, hx'] at hw
    rw [List.map_cons, List.foldl_cons, hy'] at hv'
    refine ih (fun u hu' => hu u (by simp [hu'])) (fun u hu' => hv u (by simp [hu'])) x' y' x0' ?_
      y1' hw hv'
    have := ha.op.mono (x * p) (y * q) (mul_le_mul xy hpq hp.1 (x0.trans xy))
    have e1 : a.op (x * p) = .fin x' := hx'
    have e2 : a.op (y * q) = .fin y' := hy'
    rw [e1, e2] at this
    exact this

/-- the raw weight of an entry and everything the theorems need of it -/
theorem rawR_spec (he : env.Ok) (ha : a.Ok) (hf : ∀ x ≤ 0, a.Float (env.exp x)) (lazy : Bool)
    (dims : List (RowDim K)) (hd : ∀ t ∈ dims, t.Ok) (j : Nat) :
    ∃ (ws : List K) (w : K), rawWeightR env a lazy dims j = .ok (.fin w) ∧
      0 ≤ w ∧ w ≤ 1 ∧ a.Float w ∧
      List.Forall₂ (fun (t : RowDim K) v => kernelWeightR env a lazy t.kernel (t.dist j) t.bw = .ok (.fin v) ∧
        0 ≤ v ∧ v ≤ 1) dims ws ∧
      (ws.map Num.fin).foldl (mulR a) (.fin 1) = .fin w ∧
      (0 ∈ ws → w = 0) ∧ ((∀ v ∈ ws, v = 1) → w = 1) := by
  have hk : ∀ t ∈ dims, kernelWeightR env a lazy t.kernel (t.dist j) t.bw =
      .ok (match kernelWeightR env a lazy t.kernel (t.dist j) t.bw with
        | .ok z => .fin z.toK | .error _ => .nan) ∧ ∃ v, kernelWeightR env a lazy t.kernel (t.dist j) t.bw =
      .ok (.fin v) ∧ 0 ≤ v ∧ v ≤ 1 ∧ a.Float v := by
    intro t ht
    obtain ⟨hn, hb, hdd⟩ := hd t ht
    obtain ⟨v, hv, v0, v1⟩ := kernelR_value (env := env) he ha lazy hn (hdd j) hb
    refine ⟨by rw [hv]; rfl, v, hv, v0, v1, kernelR_float he ha hf lazy hn (hdd j) hb hv⟩
  obtain ⟨ws, hws⟩ : ∃ ws : List K, List.Forall₂ (fun (t : RowDim K) v =>
      kernelWeightR env a lazy t.kernel (t.dist j) t.bw = .ok (.fin v) ∧ 0 ≤ v ∧ v ≤ 1) dims ws := by
    clear hd
    induction dims with
    | nil => exact ⟨[], .nil⟩
    | cons t dims ih =>
      obtain ⟨ws, h⟩ := ih (fun t ht => hk t (by simp [ht]))
      obtain ⟨_, v, hv, v0, v1, _⟩ := hk t (by simp)
      exact ⟨v :: ws, .cons ⟨hv, v0, v1⟩ h⟩
  have hm : mapE (fun t : RowDim K => kernelWeightR env a lazy t.kernel (t.dist j) t.bw) dims =
      .ok (ws.map Num.fin) := by
    clear hd hk
    induction hws with
    | nil => rfl
    | cons h _ ih => rw [mapE, ih, h.1]; rfl
  have hu : ∀ w ∈ ws, 0 ≤ w ∧ w ≤ 1 := by
    intro w hw
    clear hm hd hk
    induction hws with
    | nil => simp at hw
    | cons h _ ih =>
      rcases List.mem_cons.1 hw with rfl | hw
      · exact h.2
      · exact ih hw
  obtain ⟨w, hw, w0, w1, wf, hz, ho⟩ := foldR_spec ha ws hu 1 zero_le_one le_rfl ha.op.one
  refine ⟨ws, w, ?_, w0, w1, wf, hws, hw, fun h => hz (.inr h), ho rfl⟩
  rw [rawWeightR, hm]
  exact congrArg Except.ok hw

/-- the raw weight as a number -/
def rawR (env : Env K) (a : Arith K) (lazy : Bool) (dims : List (RowDim K)) (j : Nat) : K :=
  match rawWeightR env a lazy dims j with
  | .ok z => z.toK
  | .error _ => 0

section row
variable (he : env.Ok) (ha : a.Ok) (hf : ∀ x ≤ 0, a.Float (env.exp x)) (lazy : Bool)
  (dims : List (RowDim K)) (hd : ∀ t ∈ dims, t.Ok)
include he ha hf hd

theorem rawR_eq (j : Nat) : rawWeightR env a lazy dims j = .ok (.fin (rawR env a lazy dims j)) ∧
    0 ≤ rawR env a lazy dims j ∧ rawR env a lazy dims j ≤ 1 ∧ a.Float (rawR env a lazy dims j) := by
  obtain ⟨_, w, h, w0, w1, wf, _⟩ := rawR_spec he ha hf lazy dims hd j
  have : rawR env a lazy dims j = w := by rw [rawR, h]; rfl
  rw [this]
  exact ⟨h, w0, w1, wf⟩

theorem rawR_mono (i j : Nat) (hij : ∀ t ∈ dims, t.dist i ≤ t.dist j) :
    rawR env a lazy dims j ≤ rawR env a lazy dims i := by
  obtain ⟨ws, w, h, w0, w1, wf, hws, hfold, -⟩ := rawR_spec he ha hf lazy dims hd i
  obtain ⟨vs, v, h', v0, v1, vf, hvs, hfold', -⟩ := rawR_spec he ha hf lazy dims hd j
  have e1 : rawR env a lazy dims i = w := by rw [rawR, h]; rfl
  have e2 : rawR env a lazy dims j = v := by rw [rawR, h']; rfl
  rw [e1, e2]
  have hf2 : List.Forall₂ (fun v w => v ≤ w) vs ws ∧ (∀ w ∈ ws, 0 ≤ w ∧ w ≤ 1) ∧
      ∀ v ∈ vs, 0 ≤ v ∧ v ≤ 1 := by
    clear h h' hfold hfold' e1 e2
    induction hws generalizing vs with
    | nil => cases hvs; exact ⟨.nil, by simp, by simp⟩
    | @cons t w dims ws ht _ ih =>
      cases hvs with
      | @cons _ v _ vs ht' hvs =>
        obtain ⟨a1, a2, a3⟩ := ih (fun t ht => hd t (by simp [ht]))
          (fun t ht => hij t (by simp [ht])) vs hvs
        refine ⟨.cons ?_ a1, ?_, ?_⟩
        · obtain ⟨hn, hb, hdd⟩ := hd t (by simp)
          obtain ⟨p, q, hp, hq, hpq⟩ := C85_monotone he ha lazy t.kernel hn (t.dist i) (t.dist j)
            t.bw t.bw (hdd i) hb (hij t (by simp)) le_rfl
          rw [ht.1] at hp
          rw [ht'.1] at hq
          cases hp; cases hq
          exact hpq
        · intro u hu
          rcases List.mem_cons.1 hu with rfl | hu
          · exact ht.2
          · exact a2 u hu
        · intro u hu
          rcases List.mem_cons.1 hu with rfl | hu
          · exact ht'.2
          · exact a3 u hu
  exact foldR_mono ha vs ws hf2.1 hf2.2.2 hf2.2.1 1 1 zero_le_one le_rfl le_rfl v w hfold' hfold

theorem rawR_zero (j : Nat) (hj : ∃ t ∈ dims, t.kernel ∈ compactKernels ∧ t.bw < t.dist j) :
    rawR env a lazy dims j = 0 := by
  obtain ⟨ws, w, h, w0, w1, wf, hws, hfold, hz, -⟩ := rawR_spec he ha hf lazy dims hd j
  have e1 : rawR env a lazy dims j = w := by rw [rawR, h]; rfl
  rw [e1]
  apply hz
  clear h hfold hz e1
  obtain ⟨t, ht, hc, hb⟩ := hj
  induction hws with
  | nil => simp at ht
  | cons h _ ih =>
    rcases List.mem_cons.1 ht with rfl | ht
    · rw [kernelR_beyond ha lazy hc (hd t (by simp)).2.1 hb] at h
      have := Num.fin.inj (Except.ok.inj h.1)
      rw [← this]
      simp
    · exact List.mem_cons_of_mem _ (ih (fun t ht => hd t (by simp [ht])) ht)

theorem rawR_one (j : Nat) (hj : ∀ t ∈ dims, t.dist j = 0) : rawR env a lazy dims j = 1 := by
  obtain ⟨ws, w, h, w0, w1, wf, hws, hfold, -, ho⟩ := rawR_spec he ha hf lazy dims hd j
  have e1 : rawR env a lazy dims j = w := by rw [rawR, h]; rfl
  rw [e1]
  apply ho
  clear h hfold ho e1
  induction hws with
  | nil => simp
  | @cons t _ _ _ h _ ih =>
    intro v hv
    rcases List.mem_cons.1 hv with rfl | hv
    · rw [hj t (by simp), (C85_exact_values he ha lazy t.kernel (hd t (by simp)).1 t.bw
        (hd t (by simp)).2.1).1] at h
      exact (Num.fin.inj (Except.ok.inj h.1)).symm
    · exact ih (fun t ht => hd t (by simp [ht])) (fun t ht => hj t (by simp [ht])) v hv

end row

/-! ### Sums in any order -/

theorem SumTree.value_spec (ha : a.Ok) (t : SumTree K)
    (hl : ∀ z ∈ t.leaves, ∃ w, z = .fin w ∧ 0 ≤ w ∧ a.Float w) :
    (t.value a = .pinf ∨ ∃ v, t.value a = .fin v ∧ 0 ≤ v ∧ a.Float v) ∧
      ∀ w, Num.fin w ∈ t.leaves → Num.le (.fin w) (t.value a) := by
  induction t with
  | leaf x =>
    obtain ⟨w, hx, w0, wf⟩ := hl x (by simp [SumTree.leaves])
    refine ⟨.inr ⟨w, hx, w0, wf⟩, fun u hu => ?_⟩
    simp only [SumTree.leaves, List.mem_singleton] at hu
    rw [SumTree.value, ← hu]
    exact le_refl u
  | node l r ihl ihr =>
    obtain ⟨hl1, hl2⟩ := ihl fun z hz => hl z (by simp [SumTree.leaves, hz])
    obtain ⟨hr1, hr2⟩ := ihr fun z hz => hl z (by simp [SumTree.leaves, hz])
    have hmem : ∀ w, Num.fin w ∈ (SumTree.node l r).leaves → Num.fin w ∈ l.leaves ∨ Num.fin w ∈ r.leaves := by
      intro w hw
      simpa [SumTree.leaves] using hw
    rcases hl1 with h1 | ⟨x, h1, x0, xf⟩
    · have : (SumTree.node l r).value a = .pinf := by
        rcases hr1 with h2 | ⟨y, h2, _⟩ <;> simp [SumTree.value, h1, h2, Num.add, Num.rnd]
      rw [this]
      exact ⟨.inl rfl, fun _ _ => trivial⟩
    · rcases hr1 with h2 | ⟨y, h2, y0, yf⟩
      · have : (SumTree.node l r).value a = .pinf := by
          simp [SumTree.value, h1, h2, Num.add, Num.rnd]
        rw [this]
        exact ⟨.inl rfl, fun _ _ => trivial⟩
      · have e : (SumTree.node l r).value a = a.op (x + y) := by
          simp [SumTree.value, h1, h2, Num.add, Num.rnd]
        rw [e]
        have mx := ha.op.mono x (x + y) (by linarith)
        have my := ha.op.mono y (x + y) (by linarith)
        rw [show a.op x = .fin x from xf] at mx
        rw [show a.op y = .fin y from yf] at my
        refine ⟨?_, fun w hw => ?_⟩
        · rcases ha.op.nonneg (add_nonneg x0 y0) with h | ⟨v, h, v0⟩
          · exact .inl h
          · exact .inr ⟨v, h, v0, ha.op_float _ _ h⟩
        · have : w ≤ x ∨ w ≤ y := by
            rcases hmem w hw with h | h
            · left
              have := hl2 w h
              rwa [h1] at this
            · right
              have := hr2 w h
              rwa [h2] at this
          rcases ha.op.nonneg (add_nonneg x0 y0) with h | ⟨v, h, v0⟩
          · rw [h]; trivial
          · rw [h] at mx my ⊢
            rcases this with h' | h'
            · exact le_trans h' mx
            · exact le_trans h' my

theorem normEntryR (ha : a.Ok) {s : Num K}
    (hs : s = .pinf ∨ ∃ v, s = .fin v ∧ 0 ≤ v) {w : K} (w0 : 0 ≤ w) (hw : Num.le (.fin w) s) :
    ∃ e, normalizeEntryR a s (.fin w) = .fin e ∧ 0 ≤ e ∧ e ≤ 1 ∧ (w = 0 → e = 0) ∧
      ∀ u, 0 ≤ u → u ≤ w → ∃ f, normalizeEntryR a s (.fin u) = .fin f ∧ f ≤ e := by
  rcases hs with rfl | ⟨v, rfl, v0⟩
  · have : ∀ u : K, normalizeEntryR a .pinf (.fin u) = .fin 0 := by
      intro u
      simp [normalizeEntryR, Num.div, Num.rnd, ha.op.zero]
    exact ⟨0, this w, le_rfl, zero_le_one, fun _ => rfl, fun u _ _ => ⟨0, this u, le_rfl⟩⟩
  · have hwv : w ≤ v := hw
    rcases v0.eq_or_lt with rfl | vpos
    · obtain rfl := le_antisymm hwv w0
      have : normalizeEntryR a (.fin 0) (.fin (0:K)) = .fin 0 := by
        simp [normalizeEntryR, Num.div, Num.rnd, ha.op.zero]
      refine ⟨0, this, le_rfl, zero_le_one, fun _ => rfl, fun u u0 u1 => ?_⟩
      obtain rfl := le_antisymm u1 u0
      exact ⟨0, this, le_rfl⟩
    · have hne : (Num.fin v : Num K) ≠ .fin 0 := by
        intro h; exact vpos.ne' (Num.fin.inj h)
      have eq : ∀ u : K, normalizeEntryR a (.fin v) (.fin u) = a.op (u / v) := by
        intro u
        simp [normalizeEntryR, vpos.ne', Num.div, Num.rnd]
      have q1 : w / v ≤ 1 := (div_le_one vpos).2 hwv
      have q := ha.op.fin_of_unit (div_nonneg w0 v0) q1
      refine ⟨_, (eq w).trans q.1, q.2.1, q.2.2, ?_, fun u u0 uw => ?_⟩
      · rintro rfl
        simp [ha.op.zero, Num.toK]
      · have m := div_le_div_of_nonneg_right uw v0
        exact ⟨_, (eq u).trans (ha.op.fin_of_unit (div_nonneg u0 v0) (m.trans q1)).1,
          ha.op.toK_mono (div_nonneg u0 v0) m q1⟩

section rowprops
variable (he : env.Ok) (ha : a.Ok) (hf : ∀ x ≤ 0, a.Float (env.exp x)) (lazy : Bool)
  (dims : List (RowDim K)) (hd : ∀ t ∈ dims, t.Ok) (n : Nat) (shape : List (Num K) → SumTree K)
  (hs : ∀ ws, ws ≠ [] → ((shape ws).leaves).Perm ws)
include he ha hf hd

theorem rowR_eq : weightRowR env a lazy dims n shape = .ok ((List.range n).map fun j =>
    normalizeEntryR a ((shape ((List.range n).map fun j => .fin (rawR env a lazy dims j))).value a)
      (.fin (rawR env a lazy dims j))) := by
  have : mapE (rawWeightR env a lazy dims) (List.range n) =
      .ok ((List.range n).map fun j => .fin (rawR env a lazy dims j)) :=
    mapE_of_forall fun j _ => (rawR_eq he ha hf lazy dims hd j).1
  rw [weightRowR, this]
  simp only [List.map_map]
  rfl

include hs in
theorem rowR_sum (hn : 0 < n) :
    let s := (shape ((List.range n).map fun j => .fin (rawR env a lazy dims j))).value a
    (s = .pinf ∨ ∃ v, s = .fin v ∧ 0 ≤ v) ∧
      ∀ j < n, Num.le (.fin (rawR env a lazy dims j)) s := by
  have hne : ((List.range n).map fun j => Num.fin (rawR env a lazy dims j)) ≠ [] := by
    simp [hn.ne']
  have hp := hs _ hne
  have := SumTree.value_spec ha (shape ((List.range n).map fun j => .fin (rawR env a lazy dims j)))
    (by
      intro z hz
      obtain ⟨j, _, rfl⟩ := List.mem_map.1 (hp.mem_iff.1 hz)
      have h := rawR_eq he ha hf lazy dims hd j
      exact ⟨_, rfl, h.2.1, h.2.2.2⟩)
  refine ⟨?_, fun j hj => this.2 _ (hp.mem_iff.2 (List.mem_map.2 ⟨j, List.mem_range.2 hj, rfl⟩))⟩
  rcases this.1 with h | ⟨v, h, h0, _⟩
  · exact .inl h
  · exact .inr ⟨v, h, h0⟩

include hs in
/-- C86, first part: in every float arithmetic and for every order of summation a row of the
weight matrix consists of finite numbers of `[0, 1]`; a point that is at least as near in every
dimension never gets less weight, and a point beyond the bandwidth of a kernel with compact
support gets exactly 0. -/
theorem C86_row : ∃ row : List K,
    weightRowR env a lazy dims n shape = .ok (row.map Num.fin) ∧ row.length = n ∧
    (∀ w ∈ row, 0 ≤ w ∧ w ≤ 1) ∧
    (∀ i j, i < n → j < n → (∀ t ∈ dims, t.dist i ≤ t.dist j) → row.getD j 0 ≤ row.getD i 0) ∧
    ∀ j, j < n → (∃ t ∈ dims, t.kernel ∈ ["linear", "boxcar", "bisquare", "tricube"] ∧
      t.bw < t.dist j) → row.getD j 0 = 0 := by
  set s := (shape ((List.range n).map fun j => .fin (rawR env a lazy dims j))).value a with hsdef
  refine ⟨(List.range n).map fun j =>
    (normalizeEntryR a s (.fin (rawR env a lazy dims j))).toK, ?_, by simp, ?_, ?_, ?_⟩
  · rw [rowR_eq he ha hf lazy dims hd n shape, ← hsdef, List.map_map]
    congr 1
    apply List.map_congr_left
    intro j hj
    have hn := List.mem_range.1 hj
    have h := rowR_sum he ha hf lazy dims hd n shape hs (by omega)
    obtain ⟨e, h1, _⟩ := normEntryR ha h.1 (rawR_eq he ha hf lazy dims hd j).2.1 (h.2 j hn)
    rw [← hsdef] at h1
    simp [h1, Num.toK]
  · intro w hw
    obtain ⟨j, hj, rfl⟩ := List.mem_map.1 hw
    have hn := List.mem_range.1 hj
    have h := rowR_sum he ha hf lazy dims hd n shape hs (by omega)
    obtain ⟨e, h1, h2, h3, _⟩ := normEntryR ha h.1 (rawR_eq he ha hf lazy dims hd j).2.1 (h.2 j hn)
    rw [← hsdef] at h1
    simp only [h1]
    exact ⟨h2, h3⟩
  · intro i j hi hj hij
    have h := rowR_sum he ha hf lazy dims hd n shape hs (by omega)
    obtain ⟨e, h1, _, _, _, h5⟩ := normEntryR ha h.1 (rawR_eq he ha hf lazy dims hd i).2.1 (h.2 i hi)
    obtain ⟨f, h6, h7⟩ := h5 _ (rawR_eq he ha hf lazy dims hd j).2.1
      (rawR_mono he ha hf lazy dims hd i j hij)
    rw [← hsdef] at h1 h6
    simp only [List.getD_eq_getElem?_getD, List.getElem?_map, List.getElem?_range hi,
      List.getElem?_range hj, Option.map_some, Option.getD_some, h1, h6]
    exact h7
  · intro j hj hc
    have h := rowR_sum he ha hf lazy dims hd n shape hs (by omega)
    obtain ⟨e, h1, _, _, h4, _⟩ := normEntryR ha h.1 (rawR_eq he ha hf lazy dims hd j).2.1 (h.2 j hj)
    rw [← hsdef] at h1
    simp only [List.getD_eq_getElem?_getD, List.getElem?_map,
      List.getElem?_range hj, Option.map_some, Option.getD_some, h1]
    exact h4 (rawR_zero he ha hf lazy dims hd j hc)

end rowprops

/-! ### How far from one a row sum can be -/

/-- The accuracy of a float arithmetic: sums of floats up to `M` have relative error at most
`ε`; numbers of `[0, 1]` are rounded with relative error at most `ε` plus an underflow error of
at most `η`. IEEE double precision has `ε = 2⁻⁵³`, `η = 2⁻¹⁰⁷⁵` and `M` about `1.8 · 10³⁰⁸`. -/
structure Arith.Accurate (a : Arith K) (ε η M : K) : Prop where
  eps_nonneg : 0 ≤ ε
  eps_lt : ε < 1
  add : ∀ x y, a.Float x → a.Float y → 0 ≤ x → 0 ≤ y → x + y ≤ M →
    ∃ z, a.op (x + y) = .fin z ∧ |z - (x + y)| ≤ ε * (x + y)
  unit : ∀ x, 0 ≤ x → x ≤ 1 → ∃ z, a.op x = .fin z ∧ |z - x| ≤ ε * x + η

/-- the exact sum of the summands -/
def SumTree.total (t : SumTree K) : K := (t.leaves.map Num.toK).sum

theorem SumTree.value_bounds (ha : a.Ok) {ε η M : K} (hA : a.Accurate ε η M) (t : SumTree K)
    (hl : ∀ z ∈ t.leaves, ∃ w, z = .fin w ∧ 0 ≤ w ∧ w ≤ 1 ∧ a.Float w)
    (hM : t.leaves.length * (1 + ε) ^ t.depth ≤ M) :
    ∃ v, t.value a = .fin v ∧ a.Float v ∧ 0 ≤ t.total ∧ t.total ≤ t.leaves.length ∧
      (1 - ε) ^ t.depth * t.total ≤ v ∧ v ≤ (1 + ε) ^ t.depth * t.total := by
  have e0 := hA.eps_nonneg
  have e1 : 0 ≤ 1 - ε := by linarith [hA.eps_lt]
  have e2 : 1 - ε ≤ 1 := by linarith
  have e3 : 1 ≤ 1 + ε := by linarith
  induction t with
  | leaf x =>
    obtain ⟨w, rfl, w0, w1, wf⟩ := hl x (by simp [SumTree.leaves])
    exact ⟨w, rfl, wf, by simp [SumTree.total, SumTree.leaves, Num.toK, w0],
      by simp [SumTree.total, SumTree.leaves, Num.toK, w1],
      by simp [SumTree.total, SumTree.leaves, Num.toK, SumTree.depth],
      by simp [SumTree.total, SumTree.leaves, Num.toK, SumTree.depth]⟩
  | node l r ihl ihr =>
    have htot : (SumTree.node l r).total = l.total + r.total := by
      simp [SumTree.total, SumTree.leaves]
    have hlen : ((SumTree.node l r).leaves.length : K) = l.leaves.length + r.leaves.length := by
      simp [SumTree.leaves]
    rw [hlen, SumTree.depth] at hM
    set m := max l.depth r.depth with hm
    have pl : (1 + ε) ^ l.depth ≤ (1 + ε) ^ m := pow_le_pow_right₀ e3 (le_max_left _ _)
    have pr : (1 + ε) ^ r.depth ≤ (1 + ε) ^ m := pow_le_pow_right₀ e3 (le_max_right _ _)
    have ql : (1 - ε) ^ m ≤ (1 - ε) ^ l.depth := pow_le_pow_of_le_one e1 e2 (le_max_left _ _)
    have qr : (1 - ε) ^ m ≤ (1 - ε) ^ r.depth := pow_le_pow_of_le_one e1 e2 (le_max_right _ _)
    have pm : (1 + ε) ^ m ≤ (1 + ε) ^ (m + 1) := pow_le_pow_right₀ e3 (Nat.le_succ _)
    have p0 : 0 < (1 + ε) ^ m := pow_pos (by linarith) _
    have nl : (0:K) ≤ l.leaves.length := Nat.cast_nonneg _
    have nr : (0:K) ≤ r.leaves.length := Nat.cast_nonneg _
    have hMm : (l.leaves.length + r.leaves.length) * (1 + ε) ^ m ≤ M :=
      (mul_le_mul_of_nonneg_left pm (add_nonneg nl nr)).trans hM
    obtain ⟨x, hx, xf, tl0, tl1, xl, xu⟩ := ihl (fun z hz => hl z (by simp [SumTree.leaves, hz]))
      (by linarith [mul_le_mul_of_nonneg_left pl nl, mul_nonneg nr p0.le,
        add_mul (l.leaves.length : K) r.leaves.length ((1 + ε) ^ m)])
    obtain ⟨y, hy, yf, tr0, tr1, yl, yu⟩ := ihr (fun z hz => hl z (by simp [SumTree.leaves, hz]))
      (by linarith [mul_le_mul_of_nonneg_left pr nr, mul_nonneg nl p0.le,
        add_mul (l.leaves.length : K) r.leaves.length ((1 + ε) ^ m)])
    have x0 : 0 ≤ x := le_trans (mul_nonneg (pow_nonneg e1 _) tl0) xl
    have y0 : 0 ≤ y := le_trans (mul_nonneg (pow_nonneg e1 _) tr0) yl
    have hup : x + y ≤ (1 + ε) ^ m * (l.total + r.total) := by
      linarith [mul_le_mul_of_nonneg_right pl tl0, mul_le_mul_of_nonneg_right pr tr0,
        mul_add ((1 + ε) ^ m) l.total r.total]
    have hlo : (1 - ε) ^ m * (l.total + r.total) ≤ x + y := by
      linarith [mul_le_mul_of_nonneg_right ql tl0, mul_le_mul_of_nonneg_right qr tr0,
        mul_add ((1 - ε) ^ m) l.total r.total]
    have hle : x + y ≤ M := by
      refine hup.trans (le_trans ?_ hMm)
      rw [mul_comm]
      exact mul_le_mul_of_nonneg_right (add_le_add tl1 tr1) p0.le
    obtain ⟨z, hz, herr⟩ := hA.add x y xf yf x0 y0 hle
    obtain ⟨ea, eb⟩ := abs_le.1 herr
    refine ⟨z, ?_, ha.op_float _ _ hz, ?_, ?_, ?_, ?_⟩
    · simp [SumTree.value, hx, hy, Num.add, Num.rnd, hz]
    · rw [htot]; exact add_nonneg tl0 tr0
    · rw [htot, hlen]; exact add_le_add tl1 tr1
    · rw [htot, SumTree.depth, ← hm, pow_succ]
      have : (1 - ε) * ((1 - ε) ^ m * (l.total + r.total)) ≤ (1 - ε) * (x + y) :=
        mul_le_mul_of_nonneg_left hlo e1
      calc (1 - ε) ^ m * (1 - ε) * (l.total + r.total)
          = (1 - ε) * ((1 - ε) ^ m * (l.total + r.total)) := by ring
        _ ≤ (1 - ε) * (x + y) := this
        _ ≤ z := by linarith
    · rw [htot, SumTree.depth, ← hm, pow_succ]
      have : (1 + ε) * (x + y) ≤ (1 + ε) * ((1 + ε) ^ m * (l.total + r.total)) :=
        mul_le_mul_of_nonneg_left hup (by linarith)
      calc z ≤ (1 + ε) * (x + y) := by linarith
        _ ≤ (1 + ε) * ((1 + ε) ^ m * (l.total + r.total)) := this
        _ = (1 + ε) ^ m * (1 + ε) * (l.total + r.total) := by ring

theorem sum_close (l : List Nat) (f g : Nat → K) (ε η : K)
    (h : ∀ j ∈ l, |f j - g j| ≤ ε * g j + η) :
    |(l.map f).sum - (l.map g).sum| ≤ ε * (l.map g).sum + l.length * η := by
  induction l with
  | nil => simp
  | cons j l ih =>
    have h1 := abs_le.1 (h j (by simp))
    have h2 := abs_le.1 (ih fun i hi => h i (by simp [hi]))
    simp only [List.map_cons, List.sum_cons, List.length_cons, Nat.cast_succ]
    exact abs_le.2 ⟨by linarith, by linarith⟩

/-- C86, second part: the entries of a row that contains the point itself, or any other point of
distance 0, add up to one up to an explicit error: in an arithmetic with relative error `ε` and
underflow error `η`, after a summation of depth `h`, the exact sum of the `n` stored weights is
between `(1 - ε)/(1 + ε)^h - n η` and `(1 + ε)/(1 - ε)^h + n η`. Every other row satisfies the
same bounds or consists of zeros. -/
theorem C86_row_sum (he : env.Ok) (ha : a.Ok) (hf : ∀ x ≤ 0, a.Float (env.exp x)) (lazy : Bool)
    (dims : List (RowDim K)) (hd : ∀ t ∈ dims, t.Ok) (n : Nat)
    (shape : List (Num K) → SumTree K) (hs : ∀ ws, ws ≠ [] → ((shape ws).leaves).Perm ws)
    {ε η M : K} (hA : a.Accurate ε η M) (h : Nat) (hh : ∀ ws, ws.length = n → (shape ws).depth ≤ h)
    (hM : n * (1 + ε) ^ h ≤ M) :
    ∃ row : List K, weightRowR env a lazy dims n shape = .ok (row.map Num.fin) ∧ row.length = n ∧
      ((∃ j < n, ∀ t ∈ dims, t.dist j = 0) ∨ (∃ w ∈ row, w ≠ 0) →
        (1 - ε) / (1 + ε) ^ h - n * η ≤ row.sum ∧ row.sum ≤ (1 + ε) / (1 - ε) ^ h + n * η) := by
  obtain ⟨row, hrow, hlen, -, -, -⟩ := C86_row he ha hf lazy dims hd n shape hs
  refine ⟨row, hrow, hlen, fun hpos => ?_⟩
  set R := rawR env a lazy dims with hR
  set ws : List (Num K) := (List.range n).map fun j => .fin (R j) with hws
  have hn : 0 < n := by
    rcases hpos with ⟨j, hj, _⟩ | ⟨w, hw, _⟩
    · omega
    · rw [← hlen]; exact List.length_pos_of_mem hw
  have hne : ws ≠ [] := by simp [hws, hn.ne']
  have hp := hs ws hne
  have hraw := fun j => rawR_eq he ha hf lazy dims hd j
  have e0 := hA.eps_nonneg
  have e1 : 0 < 1 - ε := by linarith [hA.eps_lt]
  have hdep := hh ws (by simp [hws])
  have hll : (shape ws).leaves.length = n := by rw [hp.length_eq]; simp [hws]
  have hpow : (1 + ε) ^ (shape ws).depth ≤ (1 + ε) ^ h := pow_le_pow_right₀ (by linarith) hdep
  have hpow' : (1 - ε) ^ h ≤ (1 - ε) ^ (shape ws).depth :=
    pow_le_pow_of_le_one e1.le (by linarith) hdep
  obtain ⟨v, hv, vf, t0, -, vl, vu⟩ := SumTree.value_bounds ha hA (shape ws)
    (by
      intro z hz
      obtain ⟨j, _, rfl⟩ := List.mem_map.1 (hp.mem_iff.1 hz)
      exact ⟨_, rfl, (hraw j).2⟩)
    (by
      rw [hll]
      exact (mul_le_mul_of_nonneg_left hpow (Nat.cast_nonneg _)).trans hM)
  have htot : (shape ws).total = ((List.range n).map R).sum := by
    rw [SumTree.total, (hp.map Num.toK).sum_eq, hws, List.map_map]
    rfl
  rw [htot] at t0 vl vu
  set S := ((List.range n).map R).sum with hS
  have heq := rowR_eq he ha hf lazy dims hd n shape
  rw [← hR, ← hws, hv, hrow] at heq
  have heq' := Except.ok.inj heq
  have Rle : ∀ j < n, R j ≤ S := by
    intro j hj
    exact List.single_le_sum (fun x hx => by
      obtain ⟨i, _, rfl⟩ := List.mem_map.1 hx
      exact (hraw i).2.1) _ (List.mem_map.2 ⟨j, List.mem_range.2 hj, rfl⟩)
  -- the exact sum of the raw weights is positive
  have hSpos : 0 < S := by
    rcases t0.eq_or_lt with hz | hz
    · exfalso
      have hR0 : ∀ j < n, R j = 0 := fun j hj => le_antisymm (by rw [hz]; exact Rle j hj) (hraw j).2.1
      rcases hpos with ⟨j, hj, hdj⟩ | ⟨w, hw, hw0⟩
      · have := rawR_one he ha hf lazy dims hd j hdj
        rw [← hR, hR0 j hj] at this
        exact zero_ne_one this
      · have hm : Num.fin w ∈ row.map Num.fin := List.mem_map.2 ⟨w, hw, rfl⟩
        rw [heq'] at hm
        obtain ⟨j, hj, hj'⟩ := List.mem_map.1 hm
        rw [hR0 j (List.mem_range.1 hj)] at hj'
        have v0 : v = 0 := le_antisymm (by rw [← hz, mul_zero] at vu; exact vu)
          (by rw [← hz, mul_zero] at vl; exact vl)
        rw [v0] at hj'
        simp [normalizeEntryR, Num.div, Num.rnd, ha.op.zero] at hj'
        exact hw0 hj'.symm
    · exact hz
  have vpos : 0 < v := lt_of_lt_of_le (mul_pos (pow_pos e1 _) hSpos) vl
  have hRv : ∀ j < n, R j ≤ v := by
    intro j hj
    have := (rowR_sum he ha hf lazy dims hd n shape hs hn).2 j hj
    rw [← hR, ← hws, hv] at this
    exact this
  -- every entry is close to the exact quotient
  have hrowsum : row.sum = ((List.range n).map fun j => (a.op (R j / v)).toK).sum := by
    have : row = ((List.range n).map fun j => (a.op (R j / v)).toK) := by
      have h2 := congrArg (List.map Num.toK) heq'
      rw [List.map_map, List.map_map] at h2
      have h3 : row.map (Num.toK ∘ Num.fin) = row := by
        conv_rhs => rw [← List.map_id row]
        rfl
      rw [h3] at h2
      rw [h2]
      apply List.map_congr_left
      intro j _
      simp [normalizeEntryR, vpos.ne', Num.div, Num.rnd]
    rw [this]
  have hclose := sum_close (List.range n) (fun j => (a.op (R j / v)).toK) (fun j => R j / v) ε η
    (by
      intro j hj
      have hj' := List.mem_range.1 hj
      obtain ⟨z, hz, hzz⟩ := hA.unit (R j / v) (div_nonneg (hraw j).2.1 vpos.le)
        ((div_le_one vpos).2 (hRv j hj'))
      simp only [hz, Num.toK]
      exact hzz)
  rw [← hrowsum, List.length_range] at hclose
  have hquot : ((List.range n).map fun j => R j / v).sum = S / v := by
    rw [hS]
    simp only [div_eq_mul_inv]
    exact List.sum_map_mul_right (List.range n) R v⁻¹
  rw [hquot] at hclose
  obtain ⟨c1, c2⟩ := abs_le.1 hclose
  have hq1 : 1 / (1 + ε) ^ h ≤ S / v := by
    rw [div_le_div_iff₀ (pow_pos (by linarith) _) vpos, one_mul, mul_comm]
    exact vu.trans (mul_le_mul_of_nonneg_right hpow hSpos.le)
  have hq2 : S / v ≤ 1 / (1 - ε) ^ h := by
    rw [div_le_div_iff₀ vpos (pow_pos e1 _), one_mul, mul_comm]
    exact (mul_le_mul_of_nonneg_right hpow' hSpos.le).trans vl
  have k1 := mul_le_mul_of_nonneg_left hq1 e1.le
  have k2 := mul_le_mul_of_nonneg_left hq2 (show 0 ≤ 1 + ε by linarith)
  rw [mul_one_div] at k1 k2
  constructor <;> linarith

/-! ### Concrete cases -/

/-- a left-to-right summation -/
def leftTree : List (Num K) → SumTree K
  | [] => .leaf (.fin 0)
  | x :: l => l.foldl (fun t y => .node t (.leaf y)) (.leaf x)

theorem leftTree_leaves (ws : List (Num K)) (h : ws ≠ []) : (leftTree ws).leaves.Perm ws := by
  cases ws with
  | nil => exact absurd rfl h
  | cons x l =>
    have : ∀ (l : List (Num K)) (t : SumTree K),
        (l.foldl (fun t y => SumTree.node t (.leaf y)) t).leaves = t.leaves ++ l := by
      intro l
      induction l with
      | nil => simp
      | cons y l ih => intro t; simp [ih, SumTree.leaves]
    rw [leftTree, this]
    exact List.Perm.refl _

theorem leftTree_depth (ws : List (Num K)) : (leftTree ws).depth ≤ ws.length := by
  cases ws with
  | nil => simp [leftTree, SumTree.depth]
  | cons x l =>
    have : ∀ (l : List (Num K)) (t : SumTree K),
        (l.foldl (fun t y => SumTree.node t (.leaf y)) t).depth ≤ t.depth + l.length := by
      intro l
      induction l with
      | nil => simp
      | cons y l ih =>
        intro t
        refine (ih _).trans ?_
        simp only [SumTree.depth, List.length_cons]
        omega
    refine (this l _).trans ?_
    simp [SumTree.depth]

theorem tiny_float (x : ℚ) : tinyArith.Float x ↔ -100 ≤ x ∧ x ≤ 100 ∧ (⌈x * 8⌉ : ℚ) = x * 8 := by
  have hdef : tinyArith.Float x ↔ tinyRound x = .fin x := Iff.rfl
  rw [hdef]
  unfold tinyRound
  constructor
  · intro h
    split_ifs at h with h1 h2
    refine ⟨not_lt.1 h2, not_lt.1 h1, ?_⟩
    have := Num.fin.inj h
    linarith
  · rintro ⟨h1, h2, h3⟩
    rw [if_neg (not_lt.2 h2), if_neg (not_lt.2 h1), h3]
    congr 1
    ring

/-- The coarse arithmetic adds exactly and rounds numbers of the unit interval by at most 1/8. -/
theorem tiny_accurate : tinyArith.Accurate 0 (1 / 8) 100 where
  eps_nonneg := le_rfl
  eps_lt := zero_lt_one
  add x y hx hy x0 y0 hM := by
    obtain ⟨_, _, hx3⟩ := (tiny_float x).1 hx
    obtain ⟨_, _, hy3⟩ := (tiny_float y).1 hy
    have : tinyArith.Float (x + y) := by
      refine (tiny_float _).2 ⟨by linarith, hM, ?_⟩
      have e : (x + y) * 8 = ((⌈x * 8⌉ + ⌈y * 8⌉ : ℤ) : ℚ) := by push_cast; rw [hx3, hy3]; ring
      rw [e, Int.ceil_intCast]
    exact ⟨_, this, by simp⟩
  unit x x0 x1 := by
    refine ⟨(⌈x * 8⌉ : ℚ) / 8, ?_, ?_⟩
    · change tinyRound x = _
      unfold tinyRound
      rw [if_neg (by linarith), if_neg (by linarith)]
    · have h1 := Int.le_ceil (x * 8)
      have h2 := Int.ceil_lt_add_one (x * 8)
      rw [abs_le]
      constructor <;> linarith

/-- An exponential of the coarse arithmetic: 1 from 0 on, 0 below. -/
def stepEnv : Env ℚ := ⟨fun x => if 0 ≤ x then 1 else 0, 100⟩

theorem stepEnv_ok : stepEnv.Ok where
  exp_zero := by simp [stepEnv]
  exp_nonneg x := by simp only [stepEnv]; split_ifs <;> norm_num
  exp_mono x y h := by
    simp only [stepEnv]
    split_ifs <;> first | (exfalso; linarith) | norm_num

theorem stepEnv_float (x : ℚ) (_ : x ≤ 0) : tinyArith.Float (stepEnv.exp x) := by
  simp only [stepEnv]
  split_ifs
  · exact tinyRound_rounds.one
  · exact tinyRound_rounds.zero

/-- three points at distances 0, 4 and 9 under a bisquare kernel of bandwidth 8 -/
def exampleDims : List (RowDim ℚ) := [⟨"bisquare", fun j => [0, 4, 9].getD j 0, 8⟩]

theorem exampleDims_ok : ∀ t ∈ exampleDims, t.Ok := by
  intro t ht
  simp only [exampleDims, List.mem_singleton] at ht
  subst ht
  refine ⟨by decide, by norm_num, fun j => ?_⟩
  rcases j with _ | _ | _ | j <;> simp

/-- The exact weights are 16/25, 9/25 and 0; the coarse arithmetic makes them 5/8, 1/2 and 0,
with sum 9/8, which is within the bounds of the theorem. -/
example : weightRowR stepEnv tinyArith false exampleDims 3 leftTree =
    .ok [.fin (5 / 8), .fin (1 / 2), .fin 0] := by decide +kernel

example : ∃ row : List ℚ, weightRowR stepEnv tinyArith false exampleDims 3 leftTree =
    .ok (row.map Num.fin) ∧ row.length = 3 ∧
      ((∃ j < 3, ∀ t ∈ exampleDims, t.dist j = 0) ∨ (∃ w ∈ row, w ≠ 0) →
        ((1:ℚ) - 0) / (1 + 0) ^ 3 - (3 : ℕ) * (1 / 8) ≤ row.sum ∧
          row.sum ≤ (1 + 0) / (1 - 0) ^ 3 + (3 : ℕ) * (1 / 8)) :=
  C86_row_sum stepEnv_ok tinyArith_ok stepEnv_float false exampleDims exampleDims_ok 3 leftTree
    leftTree_leaves tiny_accurate 3 (fun ws h => h ▸ leftTree_depth ws) (by norm_num)

end Geo
