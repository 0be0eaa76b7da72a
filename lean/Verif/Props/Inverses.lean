import Verif.Props.MatrixLaws
import Mathlib.LinearAlgebra.Matrix.Determinant.Basic
import Mathlib.LinearAlgebra.Matrix.NonsingularInverse
import Mathlib.Tactic.FieldSimp
import Mathlib.Tactic.LinearCombination

/-!
# Determinants and inverses of matrices (C39, C40)

The specification is Mathlib's `Matrix` of the values of the entries, read by the names of the rows and columns.
-/

namespace NA
open Dict Comp
open SA (FitsIn InRange)

variable {α K : Type}

/-- The matrix of values of the entries with the row names `rs` and the column names `cs`. -/
def toMatrix [Zero K] (val : α → K) (M : Mat α) {m n : Nat} (rs : Fin m → String) (cs : Fin n → String) :
    Matrix (Fin m) (Fin n) K := Matrix.of fun i j => mval val M.rows (rs i) (cs j)

/-- A matrix without nested components, the rows of which are listed in the order `rs`, and each row of which lists
its components in the order `cs`. -/
def Listed (M : Mat α) (rs cs : List String) : Prop :=
  keys M.rows = rs ∧ ∀ p ∈ M.rows, ∃ cls l, p.2 = .leaf (.node cls l) ∧ keys l = cs ∧ ∀ q ∈ l, ∃ a, q.2 = .leaf a

/-- The rows and the components of each row are listed in the given orders, after flattening. -/
def Ordered (M : Mat α) (rs cs : List String) : Prop :=
  keys (cartesianNd M.rows) = rs ∧
    ∀ p ∈ cartesianNd M.rows, ∃ cls l, p.2 = .node cls l ∧ keys (cartesianNd l) = cs

/-! ### Helpers -/

theorem listed_of_layout {M P : Mat α} {rs cs : List String} (hM : keys M.rows = rs)
    (hM' : ∀ p ∈ M.rows, ∃ row, p.2 = .leaf row) {row : Comp α} {cls : String} {l : List (String × Comp α)}
    (hrow : row = .node cls l) (hl : keys l = cs) (hl' : ∀ q ∈ l, ∃ a, q.2 = .leaf a)
    (h : layout P.rows = mapL (fun _ => row.skel) M.rows) : Listed P rs cs := by
  have hk := congrArg keys h
  unfold layout at hk
  rw [keys_mapL, keys_mapL] at hk
  refine ⟨hk.trans hM, ?_⟩
  intro p hp
  have h1 : (p.1, p.2.map skel) ∈ layout P.rows := by
    unfold layout; rw [mapL_eq]; exact List.mem_map.2 ⟨p, hp, rfl⟩
  rw [h, mapL_eq] at h1
  obtain ⟨m, hm, he⟩ := List.mem_map.1 h1
  obtain ⟨row0, hr0⟩ := hM' m hm
  simp only [hr0, map, Prod.mk.injEq] at he
  obtain ⟨-, he⟩ := he
  cases hp2 : p.2 with
  | node cls' l' => rw [hp2] at he; simp [map] at he
  | leaf row' =>
    rw [hp2] at he
    simp only [map, leaf.injEq] at he
    cases row' with
    | leaf a => rw [hrow] at he; simp [skel, map] at he
    | node cls' l' =>
      rw [hrow, skel_node, skel_node] at he
      injection he with _ he
      refine ⟨cls', l', rfl, ?_, ?_⟩
      · have := congrArg keys he
        unfold skelL at this
        rw [keys_mapL, keys_mapL] at this
        rw [← this]; exact hl
      · intro q hq
        have h2 : (q.1, q.2.skel) ∈ skelL l' := by
          unfold skelL; rw [mapL_eq]; exact List.mem_map.2 ⟨q, hq, rfl⟩
        rw [← he] at h2
        unfold skelL at h2
        rw [mapL_eq] at h2
        obtain ⟨q0, hq0, he0⟩ := List.mem_map.1 h2
        obtain ⟨a, ha⟩ := hl' q0 hq0
        rw [ha] at he0
        simp only [map, Prod.mk.injEq] at he0
        cases hq2 : q.2 with
        | leaf b => exact ⟨b, rfl⟩
        | node _ _ => rw [hq2] at he0; simp [skel, map] at he0

/-- The product of listed matrices is listed. -/
theorem listed_matMat [CommRing K] {o : Ops α} {dv : K → K → K} {good : α → Prop} {val : α → K}
    {R C D : Finset String} {rs cs ds : List String} (ho : o.Sound dv good val) {M N P : Mat α}
    (hM : IsMat good R C M.rows) (hN : IsMat good C D N.rows) (h1 : Listed M rs cs) (h2 : Listed N cs ds)
    (hP : M.matMat o N = .ok P) : Listed P rs ds := by
  obtain ⟨P', row, a1, a2, _, _, a5, _⟩ := C40_matMat ho M N hM hN
  rw [hP] at a2
  cases a2
  have hrow : ∃ p ∈ N.rows, p.2 = .leaf row := by
    have := List.mem_of_head? a1
    rw [leavesL_eq] at this
    obtain ⟨p, hp, hr⟩ := List.mem_flatMap.1 this
    obtain ⟨cls, l, h3, _⟩ := h2.2 p hp
    rw [h3] at hr
    simp only [leaves, List.mem_singleton] at hr
    exact ⟨p, hp, by rw [h3, hr]⟩
  obtain ⟨p, hp, hr⟩ := hrow
  obtain ⟨cls, l, h3, h4, h5⟩ := h2.2 p hp
  rw [hr] at h3
  injection h3 with h3
  exact listed_of_layout h1.1 (fun p hp => by
    obtain ⟨cls, l, h, _⟩ := h1.2 p hp; exact ⟨_, h⟩) h3 h4 h5 a5

theorem toMatrix_mul [CommRing K] {good : α → Prop} {val : α → K} {C : Finset String} {k m n : Nat}
    {M N P : Mat α} {rs : Fin k → String} {cs : Fin m → String} {ds : Fin n → String} (hcs : Function.Injective cs)
    (hC : Finset.univ.image cs = C)
    (h : ∀ i j, mval val P.rows (rs i) (ds j) = ∑ c ∈ C, mval val M.rows (rs i) c * mval val N.rows c (ds j)) :
    toMatrix val P rs ds = toMatrix val M rs cs * toMatrix val N cs ds := by
  ext i j
  rw [Matrix.mul_apply]
  simp only [toMatrix, Matrix.of_apply]
  rw [h i j, ← hC, Finset.sum_image (fun _ _ _ _ h => hcs h)]

/-- The value of an expression. -/
def Ex.den [CommRing K] (dv : K → K → K) (env : List K) : Ex → K
  | .var i => env.getD i 0
  | .one => 1
  | .add a b => a.den dv env + b.den dv env
  | .sub a b => a.den dv env - b.den dv env
  | .mul a b => a.den dv env * b.den dv env
  | .div a b => dv (a.den dv env) (b.den dv env)
  | .neg a => - a.den dv env

theorem Ex.eval_ok [CommRing K] {o : Ops α} {dv : K → K → K} {good : α → Prop} {val : α → K}
    (ho : o.Sound dv good val) {env : List α} (he : ∀ a ∈ env, good a) (x : Ex) :
    ∃ c, x.eval o env = .ok c ∧ good c ∧ val c = x.den dv (env.map val) := by
  induction x with
  | var i =>
    refine ⟨_, rfl, ?_, ?_⟩
    · rw [List.getD_eq_getElem?_getD]
      cases hi : env[i]? with
      | none => exact ho.zero.1
      | some a => exact he a (List.mem_of_getElem? hi)
    · simp only [den]
      rw [List.getD_eq_getElem?_getD, List.getD_eq_getElem?_getD, List.getElem?_map]
      cases env[i]? with
      | none => exact ho.zero.2
      | some a => rfl
  | one => exact ⟨_, rfl, ho.one.1, ho.one.2⟩
  | add a b iha ihb =>
    obtain ⟨c, h1, h2, h3⟩ := iha
    obtain ⟨d, h4, h5, h6⟩ := ihb
    obtain ⟨r, h7, h8, h9⟩ := ho.add c d h2 h5
    exact ⟨r, by simp only [eval, h1, h4, bind, Except.bind, h7], h8, by rw [h9, h3, h6]; rfl⟩
  | sub a b iha ihb =>
    obtain ⟨c, h1, h2, h3⟩ := iha
    obtain ⟨d, h4, h5, h6⟩ := ihb
    obtain ⟨r, h7, h8, h9⟩ := ho.sub c d h2 h5
    exact ⟨r, by simp only [eval, h1, h4, bind, Except.bind, h7], h8, by rw [h9, h3, h6]; rfl⟩
  | mul a b iha ihb =>
    obtain ⟨c, h1, h2, h3⟩ := iha
    obtain ⟨d, h4, h5, h6⟩ := ihb
    obtain ⟨r, h7, h8, h9⟩ := ho.mul c d h2 h5
    exact ⟨r, by simp only [eval, h1, h4, bind, Except.bind, h7], h8, by rw [h9, h3, h6]; rfl⟩
  | div a b iha ihb =>
    obtain ⟨c, h1, h2, h3⟩ := iha
    obtain ⟨d, h4, h5, h6⟩ := ihb
    obtain ⟨r, h7, h8, h9⟩ := ho.div c d h2 h5
    exact ⟨r, by simp only [eval, h1, h4, bind, Except.bind, h7], h8, by rw [h9, h3, h6]; rfl⟩
  | neg a iha =>
    obtain ⟨c, h1, h2, h3⟩ := iha
    obtain ⟨r, h7, h8, h9⟩ := ho.neg c h2
    exact ⟨r, by simp only [eval, h1, bind, Except.bind, h7], h8, by rw [h9, h3]; rfl⟩

theorem Ex.mapM_ok [CommRing K] {o : Ops α} {dv : K → K → K} {good : α → Prop} {val : α → K}
    (ho : o.Sound dv good val) {env : List α} (he : ∀ a ∈ env, good a) (xs : List Ex) :
    ∃ vs, xs.mapM (fun x => x.eval o env) = .ok vs ∧
      List.Forall₂ (fun x v => good v ∧ val v = x.den dv (env.map val)) xs vs := by
  induction xs with
  | nil => exact ⟨[], rfl, .nil⟩
  | cons x xs ih =>
    obtain ⟨vs, h1, h2⟩ := ih
    obtain ⟨v, h3, h4⟩ := Ex.eval_ok ho he x
    exact ⟨v :: vs, by rw [List.mapM_cons, h3, h1]; rfl, .cons h4 h2⟩

/-- Flattening a row of scalars. -/
theorem cartesianNd_leaves {l : List (String × Comp α)} (hw : WF l) (hn : NamedL l) {d : Dict α}
    (h : l = d.map (fun p => (p.1, .leaf p.2))) : cartesianNd l = d := by
  rw [cartesianNd_eq hw hn, h]
  clear hw hn h
  induction d with
  | nil => rfl
  | cons p d ih => simp only [List.map_cons, entries, ih]; rfl

theorem leaves_eq_map {l : List (String × Comp α)} (h : ∀ q ∈ l, ∃ a, q.2 = .leaf a) :
    ∃ d : Dict α, l = d.map (fun p => (p.1, .leaf p.2)) ∧ keys d = keys l := by
  induction l with
  | nil => exact ⟨[], rfl, rfl⟩
  | cons q l ih =>
    obtain ⟨d, h1, h2⟩ := ih (fun q hq => h q (by simp [hq]))
    obtain ⟨a, ha⟩ := h q (by simp)
    refine ⟨(q.1, a) :: d, ?_, by rw [keys_cons, keys_cons, h2]⟩
    rw [List.map_cons, ← h1]
    congr 1
    exact Prod.ext rfl ha

theorem scalarValues_ok {cls : String} {l : List (String × Comp α)} {d : Dict α}
    (h : l = d.map (fun p => (p.1, .leaf p.2))) : Mat.scalarValues (.leaf (.node cls l)) = .ok (values d) := by
  subst h
  unfold Mat.scalarValues
  induction d with
  | nil => rfl
  | cons p d ih =>
    simp only at ih
    simp only [List.map_cons, List.mapM_cons, ih]
    rfl

theorem cartesianNd_leafRows {rows : List (String × Comp (Comp α))} (hw : WF rows) (hn : NamedL rows)
    (h : ∀ p ∈ rows, ∃ cls l, p.2 = .leaf (.node cls l)) :
    ∃ d : Dict (Comp α), rows = d.map (fun p => (p.1, .leaf p.2)) ∧ cartesianNd rows = d := by
  obtain ⟨d, h1, _⟩ := leaves_eq_map (l := rows) (fun q hq => by
    obtain ⟨cls, l, h⟩ := h q hq
    exact ⟨_, h⟩)
  exact ⟨d, h1, cartesianNd_leaves hw hn h1⟩

theorem isSquare_ok {good : α → Prop} {R C : Finset String} {M : Mat α} {rs cs : List String}
    (h : IsMat good R C M.rows) (ho : Ordered M rs cs) (hlen : rs.length = cs.length) : M.isSquare = .ok true := by
  unfold Mat.isSquare
  have : ∀ (L : Dict (Comp α)), (∀ p ∈ L, ∃ cls l, p.2 = .node cls l ∧ keys (cartesianNd l) = cs) →
      ∃ flats : List (Dict α), L.mapM (fun p => p.2.flatRow) = .ok flats ∧ ∀ d ∈ flats, d.length = cs.length := by
    intro L hL
    induction L with
    | nil => exact ⟨[], rfl, by simp⟩
    | cons p L ih =>
      obtain ⟨flats, h1, h2⟩ := ih (fun q hq => hL q (by simp [hq]))
      obtain ⟨cls, l, h3, h4⟩ := hL p (by simp)
      refine ⟨cartesianNd l :: flats, by rw [List.mapM_cons, h1, h3]; rfl, ?_⟩
      intro d hd
      rcases List.mem_cons.1 hd with rfl | hd
      · rw [← h4]; simp [keys]
      · exact h2 d hd
  obtain ⟨flats, h1, h2⟩ := this _ ho.2
  simp only [h.consistent, bind, Except.bind, if_true, h1]
  congr 1
  rw [List.all_eq_true]
  intro d hd
  rw [beq_iff_eq, h2 d hd, ← hlen, ← ho.1]
  simp [keys]

theorem listed_ordered {good : α → Prop} {R C : Finset String} {M : Mat α} {rs cs : List String}
    (h : IsMat good R C M.rows) (hl : Listed M rs cs) : Ordered M rs cs := by
  obtain ⟨d, h1, h2⟩ := cartesianNd_leafRows h.1 h.2.1 (fun p hp => by
    obtain ⟨cls, l, h, _⟩ := hl.2 p hp; exact ⟨cls, l, h⟩)
  refine ⟨?_, ?_⟩
  · rw [h2, ← hl.1, h1]; simp [keys, List.map_map, Function.comp_def]
  · intro p hp
    obtain ⟨cls', l', e, hw, hn, -⟩ := h.2.2.2.2 p hp
    rw [h2] at hp
    obtain ⟨cls, l, h3, h4, h5⟩ := hl.2 (p.1, .leaf p.2) (by rw [h1]; exact List.mem_map.2 ⟨p, hp, rfl⟩)
    simp only [leaf.injEq] at h3
    rw [e] at h3
    cases h3
    obtain ⟨d', h6, h7⟩ := leaves_eq_map h5
    exact ⟨_, _, e, by rw [cartesianNd_leaves hw hn h6, h7, h4]⟩

/-- The entries of a row in the order in which they are listed. -/
theorem keys_two {d : Dict α} {a b : String} (h : keys d = [a, b]) : ∃ x y, d = [(a, x), (b, y)] := by
  match d, h with
  | [(_, x), (_, y)], h => simp only [keys, List.map_cons, List.map_nil, List.cons.injEq] at h
                           obtain ⟨rfl, rfl, -⟩ := h; exact ⟨x, y, rfl⟩

theorem keys_one {d : Dict α} {a : String} (h : keys d = [a]) : ∃ x, d = [(a, x)] := by
  match d, h with
  | [(_, x)], h => simp only [keys, List.map_cons, List.map_nil, List.cons.injEq] at h
                   obtain ⟨rfl, -⟩ := h; exact ⟨x, rfl⟩

theorem keys_three {d : Dict α} {a b c : String} (h : keys d = [a, b, c]) :
    ∃ x y z, d = [(a, x), (b, y), (c, z)] := by
  match d, h with
  | [(_, x), (_, y), (_, z)], h => simp only [keys, List.map_cons, List.map_nil, List.cons.injEq] at h
                                   obtain ⟨rfl, rfl, rfl, -⟩ := h; exact ⟨x, y, z, rfl⟩

/-! ### Determinants -/

section det
variable [CommRing K] {o : Ops α} {dv : K → K → K} {good : α → Prop} {val : α → K} {R C D : Finset String}

theorem listed_row {M : Mat α} {rs cs : List String} (hM : IsMat good R C M.rows) (h : Listed M rs cs)
    {r : String} {c : Comp (Comp α)} (hr : (r, c) ∈ M.rows) :
    ∃ d : Dict α, Mat.scalarValues c = .ok (values d) ∧ keys d = cs ∧ (∀ p ∈ d, good p.2) ∧
      ∀ q a, get? d q = some a → mval val M.rows r q = val a := by
  obtain ⟨cls, l, h1, h2, h3⟩ := h.2 _ hr
  simp only at h1
  subst h1
  obtain ⟨d, h4, h5⟩ := leaves_eq_map h3
  obtain ⟨d0, h6, h7⟩ := cartesianNd_leafRows hM.1 hM.2.1 (fun p hp => by
    obtain ⟨cls, l, h, _⟩ := h.2 p hp; exact ⟨cls, l, h⟩)
  have hrow : (r, node cls l) ∈ cartesianNd M.rows := by
    rw [h7]
    rw [h6] at hr
    obtain ⟨p, hp, he⟩ := List.mem_map.1 hr
    simp only [Prod.mk.injEq, leaf.injEq] at he
    rw [← he.1, ← he.2]
    exact hp
  obtain ⟨cls', l', e, hw, hn, hk, hg, -⟩ := hM.2.2.2.2 _ hrow
  cases e
  have hc := cartesianNd_leaves hw hn h4
  refine ⟨d, scalarValues_ok h4, h5.trans h2, by rw [hc] at hg; exact hg, ?_⟩
  intro q a hq
  rw [mval_of_row (get?_of_mem (wf_cartesianNd _) hrow)]
  exact vval_of_coef (by simp only [coef]; rw [hc]; exact hq)

/-- **C40** `determinant` of a 2d matrix is the determinant of its entries. -/
theorem C40_determinant2 (ho : o.Sound dv good val) (M : Mat α) (hM : IsMat good R C M.rows)
    (rs cs : Fin 2 → String) (hcs : Function.Injective cs) (hl : Listed M [rs 0, rs 1] [cs 0, cs 1]) :
    ∃ d, M.determinant2 o = .ok d ∧ good d ∧ val d = (toMatrix val M rs cs).det := by
  obtain ⟨m1, m2, hm⟩ := keys_two hl.1
  obtain ⟨d1, a1, a2, a3, a4⟩ := listed_row (val := val) hM hl (r := rs 0) (c := m1) (by rw [hm]; simp)
  obtain ⟨d2, b1, b2, b3, b4⟩ := listed_row (val := val) hM hl (r := rs 1) (c := m2) (by rw [hm]; simp)
  obtain ⟨xx, xy, rfl⟩ := keys_two a2
  obtain ⟨yx, yy, rfl⟩ := keys_two b2
  have h01 : cs 0 ≠ cs 1 := fun h => by have := hcs h; simp at this
  obtain ⟨v, h1, h2, h3⟩ := Ex.eval_ok ho (env := [xx, xy, yx, yy]) (by
    intro a ha
    simp only [List.mem_cons, List.not_mem_nil, or_false] at ha
    rcases ha with rfl | rfl | rfl | rfl
    · exact a3 (cs 0, a) (by simp)
    · exact a3 (cs 1, a) (by simp)
    · exact b3 (cs 0, a) (by simp)
    · exact b3 (cs 1, a) (by simp)) Ex.det2
  refine ⟨v, ?_, h2, ?_⟩
  · unfold Mat.determinant2
    simp only [isSquare_ok hM (listed_ordered hM hl) rfl, bind, Except.bind, if_true, hm, a1, b1, values,
      List.map_cons, List.map_nil, h1]
  · rw [h3, Matrix.det_fin_two]
    simp only [toMatrix, Matrix.of_apply]
    rw [a4 (cs 0) xx (by simp [get?_cons]), a4 (cs 1) xy (by simp [get?_cons, h01]), b4 (cs 0) yx (by simp [get?_cons]),
      b4 (cs 1) yy (by simp [get?_cons, h01])]
    rfl

/-- **C40** `determinant` of a 3d matrix is the determinant of its entries. -/
theorem C40_determinant3 (ho : o.Sound dv good val) (M : Mat α) (hM : IsMat good R C M.rows)
    (rs cs : Fin 3 → String) (hcs : Function.Injective cs)
    (hl : Listed M [rs 0, rs 1, rs 2] [cs 0, cs 1, cs 2]) :
    ∃ d, M.determinant3 o = .ok d ∧ good d ∧ val d = (toMatrix val M rs cs).det := by
  obtain ⟨m1, m2, m3, hm⟩ := keys_three hl.1
  obtain ⟨d1, a1, a2, a3, a4⟩ := listed_row (val := val) hM hl (r := rs 0) (c := m1) (by rw [hm]; simp)
  obtain ⟨d2, b1, b2, b3, b4⟩ := listed_row (val := val) hM hl (r := rs 1) (c := m2) (by rw [hm]; simp)
  obtain ⟨d3, c1, c2, c3, c4⟩ := listed_row (val := val) hM hl (r := rs 2) (c := m3) (by rw [hm]; simp)
  obtain ⟨a, b, c, rfl⟩ := keys_three a2
  obtain ⟨d, e, f, rfl⟩ := keys_three b2
  obtain ⟨g, h, i, rfl⟩ := keys_three c2
  have h01 : cs 0 ≠ cs 1 := fun h => by have := hcs h; simp at this
  have h02 : cs 0 ≠ cs 2 := fun h => by have := hcs h; simp at this
  have h12 : cs 1 ≠ cs 2 := fun h => by have := hcs h; simp at this
  obtain ⟨v, h1, h2, h3⟩ := Ex.eval_ok ho (env := [a, b, c, d, e, f, g, h, i]) (by
    intro x hx
    simp only [List.mem_cons, List.not_mem_nil, or_false] at hx
    rcases hx with rfl | rfl | rfl | rfl | rfl | rfl | rfl | rfl | rfl
    · exact a3 (cs 0, x) (by simp)
    · exact a3 (cs 1, x) (by simp)
    · exact a3 (cs 2, x) (by simp)
    · exact b3 (cs 0, x) (by simp)
    · exact b3 (cs 1, x) (by simp)
    · exact b3 (cs 2, x) (by simp)
    · exact c3 (cs 0, x) (by simp)
    · exact c3 (cs 1, x) (by simp)
    · exact c3 (cs 2, x) (by simp)) Ex.det3
  refine ⟨v, ?_, h2, ?_⟩
  · unfold Mat.determinant3
    simp only [isSquare_ok hM (listed_ordered hM hl) rfl, bind, Except.bind, if_true, hm, a1, b1, c1, values,
      List.map_cons, List.map_nil, h1]
  · rw [h3, Matrix.det_fin_three]
    simp only [toMatrix, Matrix.of_apply]
    rw [a4 (cs 0) a (by simp [get?_cons]), a4 (cs 1) b (by simp [get?_cons, h01]), a4 (cs 2) c (by simp [get?_cons, h02, h12]),
      b4 (cs 0) d (by simp [get?_cons]), b4 (cs 1) e (by simp [get?_cons, h01]), b4 (cs 2) f (by simp [get?_cons, h02, h12]),
      c4 (cs 0) g (by simp [get?_cons]), c4 (cs 1) h (by simp [get?_cons, h01]), c4 (cs 2) i (by simp [get?_cons, h02, h12])]
    have : Ex.det3.den dv ([a, b, c, d, e, f, g, h, i].map val) = (val a * val e * val i) + (val b * val f * val g) +
      (val c * val d * val h) - (val c * val e * val g) - (val b * val d * val i) - (val a * val f * val h) := rfl
    rw [this]
    ring

/-- **C40** `determinant(A @ B) = determinant(A) * determinant(B)` for 2d matrices, when the columns of `A` are listed in
the order of the rows of `B`. -/
theorem C40_determinant2_mul (ho : o.Sound dv good val) (M N : Mat α) (hM : IsMat good R C M.rows)
    (hN : IsMat good C D N.rows) (rs cs ds : Fin 2 → String) (hcs : Function.Injective cs)
    (hds : Function.Injective ds) (h1 : Listed M [rs 0, rs 1] [cs 0, cs 1]) (h2 : Listed N [cs 0, cs 1] [ds 0, ds 1]) :
    ∃ P p m n, M.matMat o N = .ok P ∧ P.determinant2 o = .ok p ∧ M.determinant2 o = .ok m ∧ N.determinant2 o = .ok n ∧
      val p = val m * val n := by
  obtain ⟨P, row, a1, a2, a3, a4, a5, a6⟩ := C40_matMat ho M N hM hN
  have hP := listed_matMat ho hM hN h1 h2 a2
  obtain ⟨p, b1, -, b2⟩ := C40_determinant2 ho P a4 rs ds hds hP
  obtain ⟨m, c1, -, c2⟩ := C40_determinant2 ho M hM rs cs hcs h1
  obtain ⟨n, d1, -, d2⟩ := C40_determinant2 ho N hN cs ds hds h2
  refine ⟨P, p, m, n, a2, b1, c1, d1, ?_⟩
  have hRk := (listed_ordered hM h1).1
  have hCk := (listed_ordered hN h2).1
  have hDk := (listed_ordered a4 hP).2
  have hR : ∀ i, rs i ∈ R := fun i => by
    rw [← hM.2.2.2.1, hRk]; fin_cases i <;> simp
  have hC : Finset.univ.image cs = C := by
    rw [← hN.2.2.2.1, hCk]
    ext x
    simp only [Finset.mem_image, Finset.mem_univ, true_and, Fin.exists_fin_two, List.mem_toFinset, List.mem_cons,
      List.not_mem_nil, or_false]
    tauto
  have hD : ∀ i, ds i ∈ D := fun i => by
    obtain ⟨m1, m2, hm⟩ := keys_two hCk
    obtain ⟨cls, l, e, hk⟩ := (listed_ordered hN h2).2 _ (by rw [hm]; exact List.mem_cons_self)
    obtain ⟨cls', l', e', _, _, hk', _⟩ := hN.2.2.2.2 _ (by rw [hm]; exact List.mem_cons_self)
    rw [e] at e'
    cases e'
    rw [← hk', hk]
    fin_cases i <;> simp
  rw [b2, c2, d2, ← Matrix.det_mul, toMatrix_mul (good := good) (cs := cs) (C := C) hcs hC
    (fun i j => a6 _ (hR i) _ (hD j))]

/-- **C40** `determinant(A @ B) = determinant(A) * determinant(B)` for 3d matrices. -/
theorem C40_determinant3_mul (ho : o.Sound dv good val) (M N : Mat α) (hM : IsMat good R C M.rows)
    (hN : IsMat good C D N.rows) (rs cs ds : Fin 3 → String) (hcs : Function.Injective cs)
    (hds : Function.Injective ds) (h1 : Listed M [rs 0, rs 1, rs 2] [cs 0, cs 1, cs 2])
    (h2 : Listed N [cs 0, cs 1, cs 2] [ds 0, ds 1, ds 2]) :
    ∃ P p m n, M.matMat o N = .ok P ∧ P.determinant3 o = .ok p ∧ M.determinant3 o = .ok m ∧ N.determinant3 o = .ok n ∧
      val p = val m * val n := by
  obtain ⟨P, row, a1, a2, a3, a4, a5, a6⟩ := C40_matMat ho M N hM hN
  have hP := listed_matMat ho hM hN h1 h2 a2
  obtain ⟨p, b1, -, b2⟩ := C40_determinant3 ho P a4 rs ds hds hP
  obtain ⟨m, c1, -, c2⟩ := C40_determinant3 ho M hM rs cs hcs h1
  obtain ⟨n, d1, -, d2⟩ := C40_determinant3 ho N hN cs ds hds h2
  refine ⟨P, p, m, n, a2, b1, c1, d1, ?_⟩
  have hRk := (listed_ordered hM h1).1
  have hCk := (listed_ordered hN h2).1
  have hR : ∀ i, rs i ∈ R := fun i => by
    rw [← hM.2.2.2.1, hRk]; fin_cases i <;> simp
  have hC : Finset.univ.image cs = C := by
    rw [← hN.2.2.2.1, hCk]
    ext x
    simp only [Finset.mem_image, Finset.mem_univ, true_and, List.mem_toFinset, List.mem_cons,
      List.not_mem_nil, or_false]
    constructor
    · rintro ⟨i, rfl⟩
      fin_cases i <;> simp
    · rintro (rfl | rfl | rfl)
      exacts [⟨0, rfl⟩, ⟨1, rfl⟩, ⟨2, rfl⟩]
  have hD : ∀ i, ds i ∈ D := fun i => by
    obtain ⟨m1, m2, m3, hm⟩ := keys_three hCk
    obtain ⟨cls, l, e, hk⟩ := (listed_ordered hN h2).2 _ (by rw [hm]; exact List.mem_cons_self)
    obtain ⟨cls', l', e', _, _, hk', _⟩ := hN.2.2.2.2 _ (by rw [hm]; exact List.mem_cons_self)
    rw [e] at e'
    cases e'
    rw [← hk', hk]
    fin_cases i <;> simp
  rw [b2, c2, d2, ← Matrix.det_mul, toMatrix_mul (good := good) (cs := cs) (C := C) hcs hC
    (fun i j => a6 _ (hR i) _ (hD j))]

end det

/-! ### Inverses -/

/-- The class `cls` can be constructed from the components with these names (in any order). -/
def SigOk (sig : String → Option (List String)) (cls : String) (names : List String) : Prop :=
  sig cls = none ∨ ∃ f, sig cls = some f ∧ f.Perm names

theorem get?_perm {d d' : Dict α} (h : d.Perm d') (hw : WF d) (q : String) : get? d' q = get? d q := by
  have hw' : WF d' := (h.map Prod.fst).nodup_iff.1 hw
  cases hq : get? d q with
  | none =>
    rw [get?_eq_none] at hq ⊢
    exact fun hq' => hq ((h.map Prod.fst).mem_iff.2 hq')
  | some a => exact get?_of_mem hw' (h.mem_iff.1 (mem_of_get? hq))

theorem noEmptyL_iff {cs : List (String × Comp α)} : NoEmptyL cs ↔ ∀ p ∈ cs, p.2.NoEmpty := by
  induction cs with
  | nil => simp [NoEmptyL]
  | cons p l ih => obtain ⟨k, c⟩ := p; simp [NoEmptyL, ih]

theorem entries_perm {cs cs' : List (String × Comp α)} (h : cs.Perm cs') : (entries cs).Perm (entries cs') := by
  have : ∀ l : List (String × Comp α), entries l = l.flatMap (fun p => p.2.entriesOf p.1) := by
    intro l
    induction l with
    | nil => rfl
    | cons p l ih => obtain ⟨k, c⟩ := p; simp [entries, ih]
  rw [this, this]
  exact h.flatMap_right _

theorem isMat_perm {good : α → Prop} {R C : Finset String} {rows rows' : List (String × Comp (Comp α))}
    (h : rows.Perm rows') (hM : IsMat good R C rows) :
    IsMat good R C rows' ∧ ∀ r c, entry rows' r c = entry rows r c := by
  have hw' : WF rows' := (h.map Prod.fst).nodup_iff.1 hM.1
  have hn' : NamedL rows' := namedL_iff.2 (fun p hp => namedL_iff.1 hM.2.1 p (h.mem_iff.2 hp))
  have he : (cartesianNd rows).Perm (cartesianNd rows') := by
    rw [cartesianNd_eq hM.1 hM.2.1, cartesianNd_eq hw' hn']
    exact entries_perm h
  refine ⟨⟨hw', hn', ⟨?_, ?_⟩, ?_, ?_⟩, ?_⟩
  · rintro rfl; exact hM.2.2.1.1 h.eq_nil
  · exact noEmptyL_iff.2 (fun p hp => noEmptyL_iff.1 hM.2.2.1.2 p (h.mem_iff.2 hp))
  · rw [← hM.2.2.2.1]
    exact (List.toFinset_eq_of_perm _ _ (he.map Prod.fst)).symm
  · exact fun p hp => hM.2.2.2.2 p (he.mem_iff.2 hp)
  · intro r c
    unfold entry
    rw [get?_perm he (wf_cartesianNd _)]

theorem fromComponents_ok {o : Ops α} {sig : String → Option (List String)} {cls : String}
    {comps : List (String × Comp (Comp α))} (hw : WF comps) (h : SigOk sig cls (keys comps)) :
    ∃ rows, Mat.fromComponents o sig cls comps = .ok ⟨cls, rows⟩ ∧ comps.Perm rows ∧
      (sig cls = none ∨ sig cls = some (keys comps) → rows = comps) := by
  unfold Mat.fromComponents
  rcases h with h | ⟨f, h, hp⟩
  · rw [h]; exact ⟨comps, rfl, List.Perm.refl _, fun _ => rfl⟩
  · rw [h]
    have h1 : (keys comps).all (· ∈ f) = true := by
      rw [List.all_eq_true]; intro k hk; simpa using hp.mem_iff.2 hk
    simp only [h1, if_true]
    have h2 : ∀ (l : List (String × Comp (Comp α))), (∀ p ∈ l, p ∈ comps) →
        (keys l).map (fun f => (f, (get? comps f).getD (.leaf (.leaf o.zero)))) = l := by
      intro l hl
      unfold keys
      rw [List.map_map]
      conv_rhs => rw [← List.map_id l]
      refine List.map_congr_left (fun p hp => ?_)
      simp only [Function.comp_apply, id]
      rw [get?_of_mem hw (hl p hp)]
      rfl
    refine ⟨_, rfl, ?_, ?_⟩
    · have := (hp.map (fun f => (f, (get? comps f).getD (.leaf (.leaf o.zero))))).symm
      rw [h2 comps (fun p hp => hp)] at this
      exact this
    · rintro (h3 | h3)
      · cases h3
      · cases h3; exact h2 comps (fun p hp => hp)

/-- The layout of the inverse: row names like the components of the first row of `M` (in the order of the class), each
row like the rows of `M`. -/
def TransposedOf (M inv : Mat α) : Prop :=
  ∃ cls l r, (leavesL M.rows).head? = some (.node cls l) ∧ WF r ∧ r.Perm inv.rows ∧
    layout r = mapL (fun _ => .node M.cls (skelL M.rows)) l

section inverse
variable {o : Ops α} {good : α → Prop} {R C : Finset String}

/-- The part of `inverse` which does not depend on the dimension. -/
theorem inverse_of_flat {flat : Dict (Dict α) → NA.R (Dict (Dict α))} {sig : String → Option (List String)} {M : Mat α} {rs cs : List String}
    (hM : IsMat good R C M.rows) (hs : ∀ cls l, (leavesL M.rows).head? = some (.node cls l) → SigOk sig M.cls (keys l))
    (hord : Ordered M rs cs) (hlen : rs.length = cs.length) (hne : rs ≠ [])
    (hflat : ∀ rows : Dict (Dict α), keys rows = rs → (∀ p ∈ rows, keys p.2 = cs ∧ ∀ q ∈ p.2, good q.2) →
      (∀ r c, (get? rows r).bind (fun d => get? d c) = entry M.rows r c) →
      ∃ res, flat rows = .ok res ∧ keys res = cs ∧ ∀ p ∈ res, keys p.2 = rs ∧ ∀ q ∈ p.2, good q.2) :
    ∃ rows inv res, (∀ r c, (get? rows r).bind (fun d => get? d c) = entry M.rows r c) ∧
      keys rows = rs ∧ (∀ p ∈ rows, keys p.2 = cs ∧ ∀ q ∈ p.2, good q.2) ∧
      flat rows = .ok res ∧ M.inverseWith flat o sig = .ok inv ∧ inv.cls = M.cls ∧
      (IsMat good C R inv.rows ∧ TransposedOf M inv) ∧ ∀ c r, entry inv.rows c r = (get? res c).bind (fun d => get? d r) := by
  obtain ⟨rows, a1, a2⟩ := mapDict_ok (d := cartesianNd M.rows) (g := fun p => p.2.flatRow) (by
    intro p hp
    obtain ⟨cls, l, h, _⟩ := hord.2 p hp
    exact ⟨cartesianNd l, by rw [h]; rfl⟩)
  have hkr : keys rows = rs := (keys_of_steps a2).trans hord.1
  have hwr : WF rows := wf_of_keys (keys_of_steps a2) (wf_cartesianNd _)
  have hrow : ∀ r, (get? (cartesianNd M.rows) r = none ∧ get? rows r = none) ∨ ∃ cls l,
      get? (cartesianNd M.rows) r = some (.node cls l) ∧ get? rows r = some (cartesianNd l) ∧
      keys (cartesianNd l) = cs ∧ ∀ q ∈ cartesianNd l, good q.2 := by
    intro r
    rcases get?_of_steps a2 r with h | ⟨row, d, h1, h2, h3⟩
    · exact .inl h
    · right
      obtain ⟨cls, l, h4, h5⟩ := hord.2 _ (mem_of_get? h1)
      obtain ⟨cls', l', e, _, _, _, hg, _⟩ := hM.2.2.2.2 _ (mem_of_get? h1)
      simp only at h3 h4 e
      subst h4
      cases e
      simp only [flatRow] at h3
      cases h3
      exact ⟨cls, l, h1, h2, h5, hg⟩
  have hgood : ∀ p ∈ rows, keys p.2 = cs ∧ ∀ q ∈ p.2, good q.2 := by
    intro p hp
    rcases hrow p.1 with ⟨_, h⟩ | ⟨cls, l, _, h, h5, hg⟩
    · rw [get?_of_mem hwr hp] at h; cases h
    · rw [get?_of_mem hwr hp] at h
      injection h with h
      rw [h]
      exact ⟨h5, hg⟩
  have hent : ∀ r c, (get? rows r).bind (fun d => get? d c) = entry M.rows r c := by
    intro r c
    unfold entry
    rcases hrow r with ⟨h, h'⟩ | ⟨cls, l, h, h', _⟩
    · rw [h, h']; rfl
    · rw [h, h']; rfl
  obtain ⟨res, b1, b2, b3⟩ := hflat rows hkr hgood hent
  obtain ⟨T, cls, l, c1, c2, c3, c4, c5, c6⟩ := C40_transpose o M hM
  have hR : rs.toFinset = R := by rw [← hord.1]; exact hM.2.2.2.1
  have hcsW : cs.Nodup ∧ cs.toFinset = C := by
    obtain ⟨p, hp⟩ : ∃ p, p ∈ rows := by
      cases rows with
      | nil => exact absurd hkr.symm hne
      | cons p _ => exact ⟨p, by simp⟩
    rcases hrow p.1 with ⟨_, h⟩ | ⟨cls, l, h1, h, h5, hg⟩
    · rw [get?_of_mem hwr hp] at h; cases h
    · obtain ⟨cls', l', e, _, _, hk, _⟩ := hM.2.2.2.2 _ (mem_of_get? h1)
      cases e
      rw [← h5]
      exact ⟨wf_cartesianNd l, hk⟩
  have hrsW : rs.Nodup := by rw [← hkr]; exact hwr
  have hwres : WF res := by unfold WF; rw [b2]; exact hcsW.1
  obtain ⟨r, d1, d2, d3, d4⟩ := fromNdRows_ok (good := good) (C := R) (like := T.rows) c4.1 c4.2.1 c4.2.2.1 (by
      intro row hr
      obtain ⟨cls', cs', e, f1, f2, f3, f4, f5⟩ := c4.leaves row hr
      exact ⟨cls', cs', e, f1, f2, f3, fun _ _ => trivial, f5⟩) hwres
    (by rw [b2, c4.2.2.2.1, hcsW.2]) (by
      intro p hp
      obtain ⟨h1, h2⟩ := b3 p hp
      exact ⟨by unfold WF; rw [h1]; exact hrsW, by rw [h1, hR], h2⟩)
  have hkeys : keys r = keys l := by
    have := congrArg keys d3
    unfold layout at this
    rw [keys_mapL, keys_mapL] at this
    have h2 := congrArg keys c5
    unfold layout at h2
    rw [keys_mapL, keys_mapL] at h2
    rw [this, h2]
  obtain ⟨rows', e1, e2, -⟩ := fromComponents_ok (o := o) (sig := sig) (cls := M.cls) d2.1
    (by rw [hkeys]; exact hs cls l c1)
  rw [b2, hcsW.2] at d2
  obtain ⟨f1, f2⟩ := isMat_perm e2 d2
  refine ⟨rows, ⟨M.cls, rows'⟩, res, hent, hkr, hgood, b1, ?_, rfl,
    ⟨f1, cls, l, r, c1, d2.1, e2, d3.trans c5⟩, ?_⟩
  · unfold Mat.inverseWith
    simp only [isSquare_ok hM hord hlen, bind, Except.bind, if_true] at a1 ⊢
    simp only [a1, b1, c2, d1, e1]
  · intro c r'
    rw [f2, d4]

variable [Field K] {dv : K → K → K} {val : α → K}

theorem mem_three {P : α → Prop} {a b c : α} : (∀ x ∈ [a, b, c], P x) ↔ P a ∧ P b ∧ P c := by simp

theorem inverse_main (ho : o.Sound dv good val) (hdv : ∀ a b, b ≠ 0 → dv a b = a / b)
    (sig : String → Option (List String)) (M : Mat α) (hM : IsMat good R C M.rows)
    (hs : ∀ cls l, (leavesL M.rows).head? = some (.node cls l) → SigOk sig M.cls (keys l))
    {n : Nat} (hn : 1 ≤ n ∧ n ≤ 3) (rs cs : Fin n → String)
    (hord : Ordered M (List.ofFn rs) (List.ofFn cs)) (hdet : (toMatrix val M rs cs).det ≠ 0) :
    ∃ inv, M.inverse o sig = .ok inv ∧ inv.cls = M.cls ∧ (IsMat good C R inv.rows ∧ TransposedOf M inv) ∧
      toMatrix val M rs cs * toMatrix val inv cs rs = 1 ∧ toMatrix val inv cs rs * toMatrix val M rs cs = 1 := by
  suffices h : ∃ inv, M.inverse o sig = .ok inv ∧ inv.cls = M.cls ∧ (IsMat good C R inv.rows ∧ TransposedOf M inv) ∧
      toMatrix val M rs cs * toMatrix val inv cs rs = 1 by
    obtain ⟨inv, h1, h2, h3, h4⟩ := h
    exact ⟨inv, h1, h2, h3, h4, mul_eq_one_comm.1 h4⟩
  have hinj : Function.Injective rs ∧ Function.Injective cs := by
    have h1 : (List.ofFn rs).Nodup := by rw [← hord.1]; exact wf_cartesianNd _
    have h2 : (List.ofFn cs).Nodup := by
      obtain ⟨row, -, -, hrow⟩ := hM.proto
      have := List.mem_of_head? hrow
      rw [← values_cartesianNd hM.1 hM.2.1] at this
      obtain ⟨p, hp, -⟩ := List.mem_map.1 this
      obtain ⟨cls, l, _, hk⟩ := hord.2 p hp
      rw [← hk]
      exact wf_cartesianNd _
    exact ⟨List.nodup_ofFn.1 h1, List.nodup_ofFn.1 h2⟩
  have hval : ∀ {N : Mat α} {d : Dict (Dict α)}, (∀ r c, entry N.rows r c = (get? d r).bind (fun d => get? d c)) →
      ∀ r c a, (get? d r).bind (fun d => get? d c) = some a → mval val N.rows r c = val a := by
    intro N d h r c a h1
    unfold mval
    rw [h, h1]
    rfl
  have hn' : n = 1 ∨ n = 2 ∨ n = 3 := by omega
  rcases hn' with rfl | rfl | rfl
  · have e1 : List.ofFn rs = [rs 0] := by simp
    have e2 : List.ofFn cs = [cs 0] := by simp
    rw [e1, e2] at hord
    have main : ∀ rows : Dict (Dict α), keys rows = [rs 0] → (∀ p ∈ rows, keys p.2 = [cs 0] ∧ ∀ q ∈ p.2, good q.2) →
        ∃ a x, rows = [(rs 0, [(cs 0, a)])] ∧ Mat.inverseFlat o rows = .ok [(cs 0, [(rs 0, x)])] ∧ good x ∧
          val x = dv 1 (val a) := by
      intro rows hk hg
      obtain ⟨row, rfl⟩ := keys_one hk
      obtain ⟨h1, h2⟩ := hg _ List.mem_cons_self
      obtain ⟨a, rfl⟩ := keys_one h1
      obtain ⟨x, h3, h4, h5⟩ := Ex.eval_ok ho (env := [a]) (by simpa using h2) (Ex.one / Ex.var 0)
      refine ⟨a, x, rfl, ?_, h4, h5⟩
      simp only [Mat.inverseFlat, h3, bind, Except.bind]
    obtain ⟨rows, inv, res, h1, h2, h3, h4, h5, h6, h7, h8⟩ := inverse_of_flat (flat := Mat.inverseFlat o) (o := o) hM hs hord rfl (by simp)
      (fun rows hk hg _ => by
        obtain ⟨a, x, rfl, h1, h2, _⟩ := main rows hk hg
        exact ⟨_, h1, rfl, by simp [h2]⟩)
    refine ⟨inv, h5, h6, h7, ?_⟩
    obtain ⟨a, x, rfl, b1, b2, b3⟩ := main rows h2 h3
    rw [h4] at b1
    cases b1
    rw [Matrix.det_fin_one] at hdet
    have ea : mval val M.rows (rs 0) (cs 0) = val a := hval (fun r c => (h1 r c).symm) _ _ a (by simp [get?_cons])
    have ex : mval val inv.rows (cs 0) (rs 0) = val x := hval h8 _ _ x (by simp [get?_cons])
    simp only [toMatrix, Matrix.of_apply] at hdet
    rw [ea] at hdet
    ext i j
    fin_cases i
    fin_cases j
    simp [Matrix.mul_apply, toMatrix, ea, ex, b3, hdv _ _ hdet, hdet]
  · have e1 : List.ofFn rs = [rs 0, rs 1] := by simp
    have e2 : List.ofFn cs = [cs 0, cs 1] := by simp
    rw [e1, e2] at hord
    have r01 : rs 0 ≠ rs 1 := fun h => by have := hinj.1 h; simp at this
    have c01 : cs 0 ≠ cs 1 := fun h => by have := hinj.2 h; simp at this
    have main : ∀ rows : Dict (Dict α), keys rows = [rs 0, rs 1] →
        (∀ p ∈ rows, keys p.2 = [cs 0, cs 1] ∧ ∀ q ∈ p.2, good q.2) →
        ∃ a b c d v1 v2 v3 v4, rows = [(rs 0, [(cs 0, a), (cs 1, b)]), (rs 1, [(cs 0, c), (cs 1, d)])] ∧
          Mat.inverseFlat o rows = .ok [(cs 0, [(rs 0, v1), (rs 1, v2)]), (cs 1, [(rs 0, v3), (rs 1, v4)])] ∧
          (good v1 ∧ good v2 ∧ good v3 ∧ good v4) ∧
          (let det := val a * val d - val b * val c
           val v1 = dv (val d) det ∧ val v2 = dv (-val b) det ∧ val v3 = dv (-val c) det ∧ val v4 = dv (val a) det) := by
      intro rows hk hg
      obtain ⟨row1, row2, rfl⟩ := keys_two hk
      obtain ⟨h1, h2⟩ := hg _ List.mem_cons_self
      obtain ⟨h3, h4⟩ := hg (rs 1, row2) (by simp)
      obtain ⟨a, b, rfl⟩ := keys_two h1
      obtain ⟨c, d, rfl⟩ := keys_two h3
      simp only [List.mem_cons, List.not_mem_nil, or_false, forall_eq_or_imp, forall_eq] at h2 h4
      obtain ⟨vs, h5, h6⟩ := Ex.mapM_ok ho (env := [a, b, c, d]) (by
        intro x hx
        simp only [List.mem_cons, List.not_mem_nil, or_false] at hx
        rcases hx with rfl | rfl | rfl | rfl
        exacts [h2.1, h2.2, h4.1, h4.2]) Ex.inv2
      cases h6 with | cons g1 h6 =>
      cases h6 with | cons g2 h6 =>
      cases h6 with | cons g3 h6 =>
      cases h6 with | cons g4 h6 =>
      cases h6
      refine ⟨a, b, c, d, _, _, _, _, rfl, ?_, ⟨g1.1, g2.1, g3.1, g4.1⟩, g1.2, g2.2, g3.2, g4.2⟩
      simp only [Mat.inverseFlat, h5, bind, Except.bind]
    obtain ⟨rows, inv, res, h1, h2, h3, h4, h5, h6, h7, h8⟩ := inverse_of_flat (flat := Mat.inverseFlat o) (o := o) hM hs hord rfl (by simp)
      (fun rows hk hg _ => by
        obtain ⟨a, b, c, d, v1, v2, v3, v4, rfl, h1, h2, _⟩ := main rows hk hg
        refine ⟨_, h1, rfl, ?_⟩
        simp only [List.mem_cons, List.not_mem_nil, or_false, forall_eq_or_imp, forall_eq]
        exact ⟨⟨rfl, by tauto⟩, rfl, by tauto⟩)
    refine ⟨inv, h5, h6, h7, ?_⟩
    obtain ⟨a, b, c, d, v1, v2, v3, v4, rfl, b1, b2, b3⟩ := main rows h2 h3
    rw [h4] at b1
    cases b1
    have h1' : ∀ r c, entry M.rows r c = _ := fun r c => (h1 r c).symm
    have ea : mval val M.rows (rs 0) (cs 0) = val a := hval h1' _ _ a (by simp [get?_cons])
    have eb : mval val M.rows (rs 0) (cs 1) = val b := hval h1' _ _ b (by simp [get?_cons, c01])
    have ec : mval val M.rows (rs 1) (cs 0) = val c := hval h1' _ _ c (by simp [get?_cons, r01])
    have ed : mval val M.rows (rs 1) (cs 1) = val d := hval h1' _ _ d (by simp [get?_cons, r01, c01])
    have e1 : mval val inv.rows (cs 0) (rs 0) = val v1 := hval h8 _ _ v1 (by simp [get?_cons])
    have e2 : mval val inv.rows (cs 0) (rs 1) = val v2 := hval h8 _ _ v2 (by simp [get?_cons, r01])
    have e3 : mval val inv.rows (cs 1) (rs 0) = val v3 := hval h8 _ _ v3 (by simp [get?_cons, c01])
    have e4 : mval val inv.rows (cs 1) (rs 1) = val v4 := hval h8 _ _ v4 (by simp [get?_cons, c01, r01])
    rw [Matrix.det_fin_two] at hdet
    simp only [toMatrix, Matrix.of_apply, ea, eb, ec, ed] at hdet
    obtain ⟨b3, b4, b5, b6⟩ := b3
    rw [hdv _ _ hdet] at b3 b4 b5 b6
    generalize hD : val a * val d - val b * val c = D at *
    ext i j
    fin_cases i <;> fin_cases j <;>
      simp [Matrix.mul_apply, Fin.sum_univ_two, toMatrix, ea, eb, ec, ed, e1, e2, e3, e4, b3, b4, b5, b6] <;>
      field_simp <;> first | (rw [← hD]; ring) | ring
  · have e1 : List.ofFn rs = [rs 0, rs 1, rs 2] := by simp [List.ofFn_succ]
    have e2 : List.ofFn cs = [cs 0, cs 1, cs 2] := by simp [List.ofFn_succ]
    rw [e1, e2] at hord
    have r01 : rs 0 ≠ rs 1 := fun h => by have := hinj.1 h; simp at this
    have r02 : rs 0 ≠ rs 2 := fun h => by have := hinj.1 h; simp at this
    have r12 : rs 1 ≠ rs 2 := fun h => by have := hinj.1 h; simp at this
    have c01 : cs 0 ≠ cs 1 := fun h => by have := hinj.2 h; simp at this
    have c02 : cs 0 ≠ cs 2 := fun h => by have := hinj.2 h; simp at this
    have c12 : cs 1 ≠ cs 2 := fun h => by have := hinj.2 h; simp at this
    have main : ∀ rows : Dict (Dict α), keys rows = [rs 0, rs 1, rs 2] →
        (∀ p ∈ rows, keys p.2 = [cs 0, cs 1, cs 2] ∧ ∀ q ∈ p.2, good q.2) →
        ∃ a b c d e f g h i v1 v2 v3 v4 v5 v6 v7 v8 v9,
          rows = [(rs 0, [(cs 0, a), (cs 1, b), (cs 2, c)]), (rs 1, [(cs 0, d), (cs 1, e), (cs 2, f)]),
            (rs 2, [(cs 0, g), (cs 1, h), (cs 2, i)])] ∧
          Mat.inverseFlat o rows = .ok [(cs 0, [(rs 0, v1), (rs 1, v2), (rs 2, v3)]),
            (cs 1, [(rs 0, v4), (rs 1, v5), (rs 2, v6)]), (cs 2, [(rs 0, v7), (rs 1, v8), (rs 2, v9)])] ∧
          (good v1 ∧ good v2 ∧ good v3 ∧ good v4 ∧ good v5 ∧ good v6 ∧ good v7 ∧ good v8 ∧ good v9) ∧
          (let det := (val a * val e * val i) + (val b * val f * val g) + (val c * val d * val h) -
              (val c * val e * val g) - (val b * val d * val i) - (val a * val f * val h)
           val v1 = dv (val e * val i - val f * val h) det ∧ val v2 = dv (-(val b * val i - val c * val h)) det ∧
           val v3 = dv (val b * val f - val c * val e) det ∧ val v4 = dv (-(val d * val i - val f * val g)) det ∧
           val v5 = dv (val a * val i - val c * val g) det ∧ val v6 = dv (-(val a * val f - val c * val d)) det ∧
           val v7 = dv (val d * val h - val e * val g) det ∧ val v8 = dv (-(val a * val h - val b * val g)) det ∧
           val v9 = dv (val a * val e - val b * val d) det) := by
      intro rows hk hg
      obtain ⟨row1, row2, row3, rfl⟩ := keys_three hk
      obtain ⟨h1, h2⟩ := hg _ List.mem_cons_self
      obtain ⟨h3, h4⟩ := hg (rs 1, row2) (by simp)
      obtain ⟨h5, h6⟩ := hg (rs 2, row3) (by simp)
      obtain ⟨a, b, c, rfl⟩ := keys_three h1
      obtain ⟨d, e, f, rfl⟩ := keys_three h3
      obtain ⟨g, h, i, rfl⟩ := keys_three h5
      simp only [List.mem_cons, List.not_mem_nil, or_false, forall_eq_or_imp, forall_eq] at h2 h4 h6
      obtain ⟨vs, h7, h8⟩ := Ex.mapM_ok ho (env := [a, b, c, d, e, f, g, h, i]) (by
        intro x hx
        simp only [List.mem_cons, List.not_mem_nil, or_false] at hx
        rcases hx with rfl | rfl | rfl | rfl | rfl | rfl | rfl | rfl | rfl
        exacts [h2.1, h2.2.1, h2.2.2, h4.1, h4.2.1, h4.2.2, h6.1, h6.2.1, h6.2.2]) Ex.inv3
      cases h8 with | cons g1 h8 =>
      cases h8 with | cons g2 h8 =>
      cases h8 with | cons g3 h8 =>
      cases h8 with | cons g4 h8 =>
      cases h8 with | cons g5 h8 =>
      cases h8 with | cons g6 h8 =>
      cases h8 with | cons g7 h8 =>
      cases h8 with | cons g8 h8 =>
      cases h8 with | cons g9 h8 =>
      cases h8
      refine ⟨a, b, c, d, e, f, g, h, i, _, _, _, _, _, _, _, _, _, rfl, ?_,
        ⟨g1.1, g2.1, g3.1, g4.1, g5.1, g6.1, g7.1, g8.1, g9.1⟩, g1.2, g2.2, g3.2, g4.2, g5.2, g6.2, g7.2, g8.2, g9.2⟩
      simp only [Mat.inverseFlat, h7, bind, Except.bind]
    obtain ⟨rows, inv, res, h1, h2, h3, h4, h5, h6, h7, h8⟩ := inverse_of_flat (flat := Mat.inverseFlat o) (o := o) hM hs hord rfl (by simp)
      (fun rows hk hg _ => by
        obtain ⟨a, b, c, d, e, f, g, h, i, v1, v2, v3, v4, v5, v6, v7, v8, v9, rfl, h1, h2, _⟩ := main rows hk hg
        refine ⟨_, h1, rfl, ?_⟩
        simp only [List.mem_cons, List.not_mem_nil, or_false, forall_eq_or_imp, forall_eq]
        exact ⟨⟨rfl, by tauto⟩, ⟨rfl, by tauto⟩, rfl, by tauto⟩)
    refine ⟨inv, h5, h6, h7, ?_⟩
    obtain ⟨a, b, c, d, e, f, g, h, i, v1, v2, v3, v4, v5, v6, v7, v8, v9, rfl, b1, b2, b3⟩ := main rows h2 h3
    rw [h4] at b1
    cases b1
    have h1' : ∀ r c, entry M.rows r c = _ := fun r c => (h1 r c).symm
    have ea : mval val M.rows (rs 0) (cs 0) = val a := hval h1' _ _ a (by simp [get?_cons])
    have eb : mval val M.rows (rs 0) (cs 1) = val b := hval h1' _ _ b (by simp [get?_cons, c01])
    have ec : mval val M.rows (rs 0) (cs 2) = val c := hval h1' _ _ c (by simp [get?_cons, c02, c12])
    have ed : mval val M.rows (rs 1) (cs 0) = val d := hval h1' _ _ d (by simp [get?_cons, r01])
    have ee : mval val M.rows (rs 1) (cs 1) = val e := hval h1' _ _ e (by simp [get?_cons, r01, c01])
    have ef : mval val M.rows (rs 1) (cs 2) = val f := hval h1' _ _ f (by simp [get?_cons, r01, c02, c12])
    have eg : mval val M.rows (rs 2) (cs 0) = val g := hval h1' _ _ g (by simp [get?_cons, r02, r12])
    have eh : mval val M.rows (rs 2) (cs 1) = val h := hval h1' _ _ h (by simp [get?_cons, r02, r12, c01])
    have ei : mval val M.rows (rs 2) (cs 2) = val i := hval h1' _ _ i (by simp [get?_cons, r02, r12, c02, c12])
    have e1 : mval val inv.rows (cs 0) (rs 0) = val v1 := hval h8 _ _ v1 (by simp [get?_cons])
    have e2 : mval val inv.rows (cs 0) (rs 1) = val v2 := hval h8 _ _ v2 (by simp [get?_cons, r01])
    have e3 : mval val inv.rows (cs 0) (rs 2) = val v3 := hval h8 _ _ v3 (by simp [get?_cons, r02, r12])
    have e4 : mval val inv.rows (cs 1) (rs 0) = val v4 := hval h8 _ _ v4 (by simp [get?_cons, c01])
    have e5 : mval val inv.rows (cs 1) (rs 1) = val v5 := hval h8 _ _ v5 (by simp [get?_cons, c01, r01])
    have e6 : mval val inv.rows (cs 1) (rs 2) = val v6 := hval h8 _ _ v6 (by simp [get?_cons, c01, r02, r12])
    have e7 : mval val inv.rows (cs 2) (rs 0) = val v7 := hval h8 _ _ v7 (by simp [get?_cons, c02, c12])
    have e8 : mval val inv.rows (cs 2) (rs 1) = val v8 := hval h8 _ _ v8 (by simp [get?_cons, c02, c12, r01])
    have e9 : mval val inv.rows (cs 2) (rs 2) = val v9 := hval h8 _ _ v9 (by simp [get?_cons, c02, c12, r02, r12])
    have hdet' : (val a * val e * val i) + (val b * val f * val g) + (val c * val d * val h) -
              (val c * val e * val g) - (val b * val d * val i) - (val a * val f * val h) ≠ 0 := by
      rw [Matrix.det_fin_three] at hdet
      simp only [toMatrix, Matrix.of_apply, ea, eb, ec, ed, ee, ef, eg, eh, ei] at hdet
      intro h0
      apply hdet
      rw [← h0]
      ring
    simp only at b3
    rw [hdv _ _ hdet', hdv _ _ hdet', hdv _ _ hdet', hdv _ _ hdet', hdv _ _ hdet', hdv _ _ hdet', hdv _ _ hdet',
      hdv _ _ hdet', hdv _ _ hdet'] at b3
    obtain ⟨b3, b4, b5, b6, b7, b8, b9, b10, b11⟩ := b3
    generalize hD : (val a * val e * val i) + (val b * val f * val g) + (val c * val d * val h) -
              (val c * val e * val g) - (val b * val d * val i) - (val a * val f * val h) = D at *
    ext p q
    fin_cases p <;> fin_cases q <;>
      simp [Matrix.mul_apply, Fin.sum_univ_three, toMatrix, ea, eb, ec, ed, ee, ef, eg, eh, ei,
        e1, e2, e3, e4, e5, e6, e7, e8, e9, b3, b4, b5, b6, b7, b8, b9, b10, b11] <;>
      field_simp <;> first | (rw [← hD]; ring) | ring

/-- **C39** The inverse of a matrix with one, two or three rows (after flattening), with a nonzero determinant, all rows
of which list their components in the same order, is a two-sided inverse.

Full statement: for any order of the components of the rows, and for a row class which differs from the class of the matrix.
The missing cases are refuted below. -/
theorem C39_inverse_partial (ho : o.Sound dv good val) (hdv : ∀ a b, b ≠ 0 → dv a b = a / b)
    (sig : String → Option (List String)) (M : Mat α) (hM : IsMat good R C M.rows)
    (hs : ∀ cls l, (leavesL M.rows).head? = some (.node cls l) → SigOk sig M.cls (keys l))
    {n : Nat} (hn : 1 ≤ n ∧ n ≤ 3) (rs cs : Fin n → String)
    (hord : Ordered M (List.ofFn rs) (List.ofFn cs)) (hdet : (toMatrix val M rs cs).det ≠ 0) :
    ∃ inv, M.inverse o sig = .ok inv ∧ inv.cls = M.cls ∧ IsMat good C R inv.rows ∧
      toMatrix val M rs cs * toMatrix val inv cs rs = 1 ∧ toMatrix val inv cs rs * toMatrix val M rs cs = 1 := by
  obtain ⟨inv, h1, h2, h3, h4⟩ := inverse_main ho hdv sig M hM hs hn rs cs hord hdet
  exact ⟨inv, h1, h2, h3.1, h4⟩

theorem ordered_names {M : Mat α} {n : Nat} (hn : 1 ≤ n) {rs cs : Fin n → String} (hM : IsMat good R C M.rows)
    (h : Ordered M (List.ofFn rs) (List.ofFn cs)) :
    Finset.univ.image rs = R ∧ Finset.univ.image cs = C ∧ Function.Injective rs ∧ Function.Injective cs := by
  obtain ⟨row, -, -, hrow⟩ := hM.proto
  have := List.mem_of_head? hrow
  rw [← values_cartesianNd hM.1 hM.2.1] at this
  obtain ⟨p, hp, -⟩ := List.mem_map.1 this
  obtain ⟨cls, l, e, hk⟩ := h.2 p hp
  obtain ⟨cls', l', e', _, _, hk', _⟩ := hM.2.2.2.2 p hp
  rw [e] at e'
  cases e'
  refine ⟨?_, ?_, ?_, ?_⟩
  · rw [← hM.2.2.2.1, h.1]; ext x; simp [List.mem_ofFn]
  · rw [← hk', hk]; ext x; simp [List.mem_ofFn]
  · exact List.nodup_ofFn.1 (by rw [← h.1]; exact wf_cartesianNd _)
  · exact List.nodup_ofFn.1 (by rw [← hk]; exact wf_cartesianNd _)

/-- **C39** `M @ M.inverse` and `M.inverse @ M` have the entries of identity matrices (see `C39_inverse_partial` for what is
missing). -/
theorem C39_products_partial (ho : o.Sound dv good val) (hdv : ∀ a b, b ≠ 0 → dv a b = a / b)
    (sig : String → Option (List String)) (M : Mat α) (hM : IsMat good R C M.rows)
    (hs : ∀ cls l, (leavesL M.rows).head? = some (.node cls l) → SigOk sig M.cls (keys l))
    {n : Nat} (hn : 1 ≤ n ∧ n ≤ 3) (rs cs : Fin n → String)
    (hord : Ordered M (List.ofFn rs) (List.ofFn cs)) (hdet : (toMatrix val M rs cs).det ≠ 0) :
    ∃ inv I J, M.inverse o sig = .ok inv ∧ M.matMat o inv = .ok I ∧ inv.matMat o M = .ok J ∧
      IsMat good R R I.rows ∧ IsMat good C C J.rows ∧ IsIdentity val R I ∧ IsIdentity val C J := by
  obtain ⟨inv, h1, h2, h3, h4, h5⟩ := C39_inverse_partial ho hdv sig M hM hs hn rs cs hord hdet
  obtain ⟨I, _, -, a2, -, a4, -, a6⟩ := C40_matMat ho M inv hM h3
  obtain ⟨J, _, -, b2, -, b4, -, b6⟩ := C40_matMat ho inv M h3 hM
  obtain ⟨hR, hC, ir, ic⟩ := ordered_names hn.1 hM hord
  have hmr : ∀ i, rs i ∈ R := fun i => by rw [← hR]; exact Finset.mem_image_of_mem _ (Finset.mem_univ i)
  have hmc : ∀ i, cs i ∈ C := fun i => by rw [← hC]; exact Finset.mem_image_of_mem _ (Finset.mem_univ i)
  refine ⟨inv, I, J, h1, a2, b2, a4, b4, ?_, ?_⟩
  · intro r hr c hc
    rw [← hR] at hr hc
    obtain ⟨i, -, rfl⟩ := Finset.mem_image.1 hr
    obtain ⟨j, -, rfl⟩ := Finset.mem_image.1 hc
    have := congrFun (congrFun (toMatrix_mul (good := good) (P := I) (M := M) (N := inv) (cs := cs) (rs := rs) (ds := rs)
      ic hC (fun i j => a6 _ (hmr i) _ (hmr j))) i) j
    rw [h4] at this
    simp only [toMatrix, Matrix.of_apply] at this
    rw [this, Matrix.one_apply]
    by_cases hij : i = j
    · simp [hij]
    · rw [if_neg hij, if_neg (fun h => hij (ir h))]
  · intro r hr c hc
    rw [← hC] at hr hc
    obtain ⟨i, -, rfl⟩ := Finset.mem_image.1 hr
    obtain ⟨j, -, rfl⟩ := Finset.mem_image.1 hc
    have := congrFun (congrFun (toMatrix_mul (good := good) (P := J) (M := inv) (N := M) (cs := rs) (rs := cs) (ds := cs)
      ir hR (fun i j => b6 _ (hmc i) _ (hmc j))) i) j
    rw [h5] at this
    simp only [toMatrix, Matrix.of_apply] at this
    rw [this, Matrix.one_apply]
    by_cases hij : i = j
    · simp [hij]
    · rw [if_neg hij, if_neg (fun h => hij (ic h))]

/-- **C39** for matrices of named arrays: if the determinant is nonzero at each named index, the inverse is a two-sided
inverse at each named index. -/
theorem C39_named_partial [DecidableEq K] {dv : K → K → K} (hdv : ∀ a b, b ≠ 0 → dv a b = a / b) (S : Shape)
    (hS : ∃ e, InRange S e) (sig : String → Option (List String)) (M : Mat (SA K)) (hM : IsMat (inShape S) R C M.rows)
    (hs : ∀ cls l, (leavesL M.rows).head? = some (.node cls l) → SigOk sig M.cls (keys l))
    {n : Nat} (hn : 1 ≤ n ∧ n ≤ 3) (rs cs : Fin n → String) (hord : Ordered M (List.ofFn rs) (List.ofFn cs))
    (hdet : ∀ e, InRange S e → (toMatrix (fun a => a.atB e) M rs cs).det ≠ 0) :
    ∃ inv, M.inverse (Ops.named dv) sig = .ok inv ∧ IsMat (inShape S) C R inv.rows ∧
      ∀ e, InRange S e → toMatrix (fun a => a.atB e) M rs cs * toMatrix (fun a => a.atB e) inv cs rs = 1 ∧
        toMatrix (fun a => a.atB e) inv cs rs * toMatrix (fun a => a.atB e) M rs cs = 1 := by
  obtain ⟨e0, he0⟩ := hS
  obtain ⟨inv, h1, -, h3, -⟩ := C39_inverse_partial (Ops.named_sound dv S he0) hdv sig M hM hs hn rs cs hord (hdet e0 he0)
  refine ⟨inv, h1, h3, fun e he => ?_⟩
  obtain ⟨inv', a1, -, -, a4⟩ := C39_inverse_partial (Ops.named_sound dv S he) hdv sig M hM hs hn rs cs hord (hdet e he)
  rw [h1] at a1
  cases a1
  exact a4

end inverse

/-! ### Particular matrices -/

/-- the names of the components of a 2d vector -/
abbrev xy : Fin 2 → String := ![ "x", "y" ]
/-- the names of the components of a 3d vector -/
abbrev xyz : Fin 3 → String := ![ "x", "y", "z" ]
/-- ... as sets -/
abbrev sxy : Finset String := {"x", "y"}
/-- ... as sets -/
abbrev sxyz : Finset String := {"x", "y", "z"}

theorem isMat_mk2 {good : α → Prop} {a b c d : α} (ha : good a) (hb : good b) (hc : good c) (hd : good d) :
    IsMat good sxy sxy (Mat.mk2 a b c d).rows := by
  have hrow : ∀ {a b : α}, good a → good b → IsVec good sxy (.node "Cartesian2d" [("x", .leaf a), ("y", .leaf b)]) := by
    intro a b ha hb
    refine ⟨_, _, rfl, (by decide : (["x", "y"] : List String).Nodup), ⟨by decide, trivial, by decide, trivial, trivial⟩, ?_, ?_,
      by simp, trivial, trivial, trivial⟩
    · show (["x", "y"] : List String).toFinset = _
      decide
    · show ∀ p ∈ [("x", a), ("y", b)], good p.2
      simp [ha, hb]
  refine ⟨(by decide : (["x", "y"] : List String).Nodup), ⟨by decide, trivial, by decide, trivial, trivial⟩,
    ⟨by simp [Mat.mk2], trivial, trivial, trivial⟩, ?_, ?_⟩
  · show (["x", "y"] : List String).toFinset = _
    decide
  · show ∀ p ∈ [("x", Comp.node "Cartesian2d" [("x", .leaf a), ("y", .leaf b)]),
      ("y", .node "Cartesian2d" [("x", .leaf c), ("y", .leaf d)])], IsVec good _ p.2
    intro p hp
    simp only [List.mem_cons, List.not_mem_nil, or_false] at hp
    rcases hp with rfl | rfl
    · exact hrow ha hb
    · exact hrow hc hd

theorem isVec_mk3 {good : α → Prop} {a b c : α} (ha : good a) (hb : good b) (hc : good c) :
    IsVec good sxyz (.node "Cartesian3d" [("x", .leaf a), ("y", .leaf b), ("z", .leaf c)]) := by
  refine ⟨_, _, rfl, (by decide : (["x", "y", "z"] : List String).Nodup), ⟨by decide, trivial, by decide, trivial, by decide, trivial, trivial⟩, ?_, ?_, by simp,
    trivial, trivial, trivial, trivial⟩
  · show (["x", "y", "z"] : List String).toFinset = _
    decide
  · show ∀ p ∈ [("x", a), ("y", b), ("z", c)], good p.2
    simp [ha, hb, hc]

theorem isMat_mk3 {good : α → Prop} {a b c d e f g h i : α} (ha : good a) (hb : good b) (hc : good c) (hd : good d)
    (he : good e) (hf : good f) (hg : good g) (hh : good h) (hi : good i) :
    IsMat good sxyz sxyz (Mat.mk3 a b c d e f g h i).rows := by
  refine ⟨(by decide : (["x", "y", "z"] : List String).Nodup), ⟨by decide, trivial, by decide, trivial, by decide, trivial, trivial⟩,
    ⟨by simp [Mat.mk3], trivial, trivial, trivial, trivial⟩, ?_, ?_⟩
  · show (["x", "y", "z"] : List String).toFinset = _
    decide
  · show ∀ p ∈ [("x", Comp.node "Cartesian3d" [("x", .leaf a), ("y", .leaf b), ("z", .leaf c)]),
      ("y", .node "Cartesian3d" [("x", .leaf d), ("y", .leaf e), ("z", .leaf f)]),
      ("z", .node "Cartesian3d" [("x", .leaf g), ("y", .leaf h), ("z", .leaf i)])], IsVec good _ p.2
    intro p hp
    simp only [List.mem_cons, List.not_mem_nil, or_false] at hp
    rcases hp with rfl | rfl | rfl
    · exact isVec_mk3 ha hb hc
    · exact isVec_mk3 hd he hf
    · exact isVec_mk3 hg hh hi

theorem listed_mk2 (a b c d : α) : Listed (Mat.mk2 a b c d) ["x", "y"] ["x", "y"] := by
  refine ⟨rfl, ?_⟩
  intro p hp
  simp only [Mat.mk2, List.mem_cons, List.not_mem_nil, or_false] at hp
  rcases hp with rfl | rfl <;> exact ⟨_, _, rfl, rfl, by simp⟩

theorem listed_mk3 (a b c d e f g h i : α) :
    Listed (Mat.mk3 a b c d e f g h i) ["x", "y", "z"] ["x", "y", "z"] := by
  refine ⟨rfl, ?_⟩
  intro p hp
  simp only [Mat.mk3, List.mem_cons, List.not_mem_nil, or_false] at hp
  rcases hp with rfl | rfl | rfl <;> exact ⟨_, _, rfl, rfl, by simp⟩

theorem toMatrix_mk2 [Zero K] (val : α → K) (a b c d : α) :
    toMatrix val (Mat.mk2 a b c d) xy xy = !![val a, val b; val c, val d] := by
  ext i j
  fin_cases i <;> fin_cases j <;> rfl

theorem toMatrix_mk3 [Zero K] (val : α → K) (a b c d e f g h i : α) :
    toMatrix val (Mat.mk3 a b c d e f g h i) xyz xyz = !![val a, val b, val c; val d, val e, val f; val g, val h, val i] := by
  ext i j
  fin_cases i <;> fin_cases j <;> rfl

/-- Reading all entries of a matrix as a `Matrix`. -/
theorem isIdentity_iff [CommRing K] {val : α → K} {M : Mat α} {n : Nat} {rs : Fin n → String} {R : Finset String}
    (hR : Finset.univ.image rs = R) (hr : Function.Injective rs) : IsIdentity val R M ↔ toMatrix val M rs rs = 1 := by
  constructor
  · intro h
    ext i j
    simp only [toMatrix, Matrix.of_apply]
    rw [h _ (by rw [← hR]; simp) _ (by rw [← hR]; simp), Matrix.one_apply]
    by_cases hij : i = j
    · simp [hij]
    · rw [if_neg hij, if_neg (fun h => hij (hr h))]
  · intro h r hr' c hc
    rw [← hR] at hr' hc
    obtain ⟨i, -, rfl⟩ := Finset.mem_image.1 hr'
    obtain ⟨j, -, rfl⟩ := Finset.mem_image.1 hc
    have := congrFun (congrFun h i) j
    simp only [toMatrix, Matrix.of_apply] at this
    rw [this, Matrix.one_apply]
    by_cases hij : i = j
    · simp [hij]
    · rw [if_neg hij, if_neg (fun h => hij (hr h))]

theorem xy_names : Finset.univ.image xy = sxy ∧ Function.Injective xy := by decide
theorem xyz_names : Finset.univ.image xyz = sxyz ∧ Function.Injective xyz := by decide

/-- **C40** The identity matrices of the package are identity matrices, so neutral. -/
theorem C40_identity_matrices [CommRing K] {o : Ops α} {dv : K → K → K} {good : α → Prop} {val : α → K}
    (ho : o.Sound dv good val) :
    (IsMat good sxy sxy (Mat.identity2 o).rows ∧ IsIdentity val sxy (Mat.identity2 o)) ∧
    (IsMat good sxyz sxyz (Mat.identity3 o).rows ∧ IsIdentity val sxyz (Mat.identity3 o)) := by
  have h0 := ho.zero
  have h1 := ho.one
  refine ⟨⟨isMat_mk2 h1.1 h0.1 h0.1 h1.1, ?_⟩,
    ⟨isMat_mk3 h1.1 h0.1 h0.1 h0.1 h1.1 h0.1 h0.1 h0.1 h1.1, ?_⟩⟩
  · rw [isIdentity_iff xy_names.1 xy_names.2]
    unfold Mat.identity2
    rw [toMatrix_mk2, h0.2, h1.2]
    exact Matrix.one_fin_two.symm
  · rw [isIdentity_iff xyz_names.1 xyz_names.2]
    unfold Mat.identity3
    rw [toMatrix_mk3, h0.2, h1.2]
    exact Matrix.one_fin_three.symm

/-! ### Cases which meet the hypotheses -/

/-- fields of the classes of vectors which have them -/
def sigEx : String → Option (List String)
  | "Cartesian2d" => some ["x", "y"]
  | "Cartesian3d" => some ["x", "y", "z"]
  | _ => none

/-- division of rationals -/
def dvQ (a b : ℚ) : ℚ := a / b

example : IsMat anyNum sxy sxy (Mat.mk2 (1 : ℚ) 2 3 4).rows := isMat_mk2 trivial trivial trivial trivial

example : ∃ inv I J, (Mat.mk2 (1 : ℚ) 2 3 4).inverse (Ops.num dvQ) sigEx = .ok inv ∧
    (Mat.mk2 (1 : ℚ) 2 3 4).matMat (Ops.num dvQ) inv = .ok I ∧ inv.matMat (Ops.num dvQ) (Mat.mk2 (1 : ℚ) 2 3 4) = .ok J ∧
    IsMat anyNum sxy sxy I.rows ∧ IsMat anyNum sxy sxy J.rows ∧ IsIdentity id sxy I ∧ IsIdentity id sxy J := by
  refine C39_products_partial (Ops.num_sound dvQ) (fun _ _ _ => rfl) sigEx _ (isMat_mk2 trivial trivial trivial trivial)
    ?_ (n := 2) (by decide) xy xy ?_ ?_
  · intro cls l h
    cases h
    exact .inr ⟨_, rfl, List.Perm.refl _⟩
  · exact listed_ordered (isMat_mk2 (good := anyNum) trivial trivial trivial trivial) (listed_mk2 _ _ _ _)
  · rw [toMatrix_mk2, Matrix.det_fin_two]
    norm_num

example : ∃ d, (Mat.mk3 (1 : ℚ) 2 3 4 5 6 7 8 10).determinant3 (Ops.num dvQ) = .ok d ∧ d = -3 := by
  obtain ⟨d, h1, -, h3⟩ := C40_determinant3 (Ops.num_sound dvQ) (Mat.mk3 (1 : ℚ) 2 3 4 5 6 7 8 10)
    (isMat_mk3 trivial trivial trivial trivial trivial trivial trivial trivial trivial) xyz xyz xyz_names.2
    (listed_mk3 _ _ _ _ _ _ _ _ _)
  refine ⟨d, h1, ?_⟩
  rw [toMatrix_mk3, Matrix.det_fin_three] at h3
  simp only [id] at h3
  rw [h3]
  decide +kernel

/-! ### Where C39 fails -/

/-- a matrix the rows of which list their components in different orders: by name it is `[[1, 2], [0, 1]]` -/
def permuted : Mat ℚ := ⟨"CartesianNd",
  [("x", .leaf (.node "CartesianNd" [("x", .leaf 1), ("y", .leaf 2)])),
   ("y", .leaf (.node "CartesianNd" [("y", .leaf 1), ("x", .leaf 0)]))]⟩

theorem isMat_permuted : IsMat anyNum sxy sxy permuted.rows := by
  refine ⟨by decide, ⟨by decide, trivial, by decide, trivial, trivial⟩, ⟨by simp [permuted], trivial, trivial, trivial⟩, ?_, ?_⟩
  · show (["x", "y"] : List String).toFinset = _
    decide
  · show ∀ p ∈ [("x", Comp.node "CartesianNd" [("x", .leaf (1 : ℚ)), ("y", .leaf 2)]),
      ("y", .node "CartesianNd" [("y", .leaf 1), ("x", .leaf 0)])], IsVec anyNum _ p.2
    intro p hp
    simp only [List.mem_cons, List.not_mem_nil, or_false] at hp
    rcases hp with rfl | rfl
    · exact ⟨_, _, rfl, by decide, ⟨by decide, trivial, by decide, trivial, trivial⟩, by
        show (["x", "y"] : List String).toFinset = _
        decide, fun _ _ => trivial, by simp, trivial, trivial, trivial⟩
    · exact ⟨_, _, rfl, by decide, ⟨by decide, trivial, by decide, trivial, trivial⟩, by
        show (["y", "x"] : List String).toFinset = _
        decide, fun _ _ => trivial, by simp, trivial, trivial, trivial⟩

/-- **C39 fails** when the rows list their components in different orders: the matrix is invertible, `inverse` returns
a matrix, but it is not the inverse. -/
theorem C39_fails_order : ∃ M : Mat ℚ, IsMat anyNum sxy sxy M.rows ∧ (toMatrix id M xy xy).det ≠ 0 ∧
    ∃ inv, M.inverse (Ops.num dvQ) sigEx = .ok inv ∧ toMatrix id M xy xy * toMatrix id inv xy xy ≠ 1 := by
  refine ⟨permuted, isMat_permuted, ?_, ?_⟩
  · have : toMatrix id permuted xy xy = !![1, 2; 0, 1] := by
      ext i j
      fin_cases i <;> fin_cases j <;> rfl
    rw [this, Matrix.det_fin_two]
    norm_num
  · refine ⟨_, rfl, ?_⟩
    intro h
    have := congrFun (congrFun h 1) 0
    rw [Matrix.mul_apply, Fin.sum_univ_two] at this
    simp only [toMatrix, Matrix.of_apply] at this
    revert this
    decide +kernel

/-- **C39 fails** when the rows of the matrix have other component names than the rows of a matrix of its class may
have: `inverse` raises `TypeError` because it constructs the class of the matrix itself, not of its transpose. -/
theorem C39_fails_class : ∃ M : Mat ℚ, IsMat anyNum sxy {"u", "v"} M.rows ∧ (toMatrix id M xy ![ "u", "v" ]).det ≠ 0 ∧
    M.inverse (Ops.num dvQ) sigEx = .error .typeError := by
  refine ⟨⟨"Cartesian2d",
    [("x", .leaf (.node "CartesianNd" [("u", .leaf 1), ("v", .leaf 0)])),
     ("y", .leaf (.node "CartesianNd" [("u", .leaf 0), ("v", .leaf 1)]))]⟩, ?_, ?_, rfl⟩
  · refine ⟨by decide, ⟨by decide, trivial, by decide, trivial, trivial⟩, ⟨by simp, trivial, trivial, trivial⟩, ?_, ?_⟩
    · show (["x", "y"] : List String).toFinset = _
      decide
    · show ∀ p ∈ [("x", Comp.node "CartesianNd" [("u", .leaf (1 : ℚ)), ("v", .leaf 0)]),
        ("y", .node "CartesianNd" [("u", .leaf 0), ("v", .leaf 1)])], IsVec anyNum _ p.2
      intro p hp
      simp only [List.mem_cons, List.not_mem_nil, or_false] at hp
      rcases hp with rfl | rfl
      · exact ⟨_, _, rfl, by decide, ⟨by decide, trivial, by decide, trivial, trivial⟩, by
          show (["u", "v"] : List String).toFinset = _
          decide, fun _ _ => trivial, by simp, trivial, trivial, trivial⟩
      · exact ⟨_, _, rfl, by decide, ⟨by decide, trivial, by decide, trivial, trivial⟩, by
          show (["u", "v"] : List String).toFinset = _
          decide, fun _ _ => trivial, by simp, trivial, trivial, trivial⟩
  · have : toMatrix id (⟨"Cartesian2d",
      [("x", .leaf (.node "CartesianNd" [("u", .leaf 1), ("v", .leaf 0)])),
       ("y", .leaf (.node "CartesianNd" [("u", .leaf 0), ("v", .leaf 1)]))]⟩ : Mat ℚ) xy ![ "u", "v" ] = !![1, 0; 0, 1] := by
      ext i j
      fin_cases i <;> fin_cases j <;> rfl
    rw [this, Matrix.det_fin_two]
    norm_num

/-- **C40 limit**: the determinant of a matrix depends on the orders in which the rows list their components. -/
theorem C40_fails_determinant_order :
    (toMatrix id permuted xy xy).det = 1 ∧ permuted.determinant2 (Ops.num dvQ) = .ok (-2) := by
  constructor
  · have : toMatrix id permuted xy xy = !![1, 2; 0, 1] := by
      ext i j
      fin_cases i <;> fin_cases j <;> rfl
    rw [this, Matrix.det_fin_two]
    norm_num
  · decide +kernel

end NA
