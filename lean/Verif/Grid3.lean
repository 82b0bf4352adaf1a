import Verif.Extend
import Verif.GridProps

/-!
# C98: faces of the three-dimensional conformal grid

Model of `compute_areas`, `mark_cells`, `compute_extensions` and of the constructor of `wakis/grid3D.py`: the routines of the two-dimensional grid, plane by plane.
-/

namespace Wakis
namespace Cond
noncomputable section
open Set Classical MeasureTheory

/-! ### Model -/

/-- The arrays `l_x`, `l_y`, `l_z` (grid3D.py:47-49). -/
structure Edges3 where
  x : ℕ → ℕ → ℕ → ℝ
  y : ℕ → ℕ → ℕ → ℝ
  z : ℕ → ℕ → ℕ → ℝ

/-- `l_x[:, :, kk]`, `l_y[:, :, kk]` (grid3D.py:513-524). -/
def Edges3.xy (l : Edges3) (k : ℕ) : (ℕ → ℕ → ℝ) × (ℕ → ℕ → ℝ) := (fun i j => l.x i j k, fun i j => l.y i j k)

/-- `l_y[ii, :, :]`, `l_z[ii, :, :]` (grid3D.py:525-536). -/
def Edges3.yz (l : Edges3) (i : ℕ) : (ℕ → ℕ → ℝ) × (ℕ → ℕ → ℝ) := (fun j k => l.y i j k, fun j k => l.z i j k)

/-- `l_x[:, jj, :]`, `l_z[:, jj, :]` (grid3D.py:537-548). -/
def Edges3.zx (l : Edges3) (j : ℕ) : (ℕ → ℕ → ℝ) × (ℕ → ℕ → ℝ) := (fun i k => l.x i j k, fun i k => l.z i j k)

/-- `Sxy` (grid3D.py:513-524): the faces across z. -/
def areaXY (l : Edges3) (d : Fin 3 → ℝ) (i j k : ℕ) : ℝ := areas (l.xy k).1 (l.xy k).2 (d 0) (d 1) i j

/-- `Syz` (grid3D.py:525-536). -/
def areaYZ (l : Edges3) (d : Fin 3 → ℝ) (i j k : ℕ) : ℝ := areas (l.yz i).1 (l.yz i).2 (d 1) (d 2) j k

/-- `Szx` (grid3D.py:537-548): the first index of the plane is x, the second z. -/
def areaZX (l : Edges3) (d : Fin 3 → ℝ) (i j k : ℕ) : ℝ := areas (l.zx j).1 (l.zx j).2 (d 0) (d 2) i k

/-- What the two-dimensional extension is given in the plane `z = k` (areas and marks: grid3D.py:513-524, 589-603; arguments: 641-658). -/
def inXY (l : Edges3) (d : Fin 3 → ℝ) (nx ny : ℕ) (k : ℕ) : ExtIn := ectIn (l.xy k).1 (l.xy k).2 (d 0) (d 1) nx ny

/-- The same in the plane `x = i` (grid3D.py:525-536, 604-618, 660-676). -/
def inYZ (l : Edges3) (d : Fin 3 → ℝ) (ny nz : ℕ) (i : ℕ) : ExtIn := ectIn (l.yz i).1 (l.yz i).2 (d 1) (d 2) ny nz

/-- The same in the plane `y = j` (grid3D.py:537-548, 619-633, 678-694). -/
def inZX (l : Edges3) (d : Fin 3 → ℝ) (nx nz : ℕ) (j : ℕ) : ExtIn := ectIn (l.zx j).1 (l.zx j).2 (d 0) (d 2) nx nz

/-- The 'ECT' branch of the constructor (grid3D.py:149-245 with 639-694) after the edges are computed: the planes use disjoint parts of the arrays, so the result is a list of
results. -/
def ect3 (l : Edges3) (d : Fin 3 → ℝ) (nx ny nz : ℕ) : Py (List ExtSt × List ExtSt × List ExtSt) := do
  let xy ← (List.range (nz + 1)).mapM fun k => extensions (inXY l d nx ny k) (ectStart (inXY l d nx ny k))
  let yz ← (List.range (nx + 1)).mapM fun i => extensions (inYZ l d ny nz i) (ectStart (inYZ l d ny nz i))
  let zx ← (List.range (ny + 1)).mapM fun j => extensions (inZX l d nx nz j) (ectStart (inZX l d nx nz j))
  return (xy, yz, zx)

/-- The 'FIT' branch (grid3D.py:247-290): the statements of gridFIT3D.py:257-299 on `np.linspace` axes. -/
def fit3 (lo hi : Fin 3 → ℝ) (N : Fin 3 → ℕ) : Grid.Geom ℝ := Grid.uniform (lo 0) (hi 0) (lo 1) (hi 1) (lo 2) (hi 2) (N 0) (N 1) (N 2)

/-! ### Specification -/

/-- The three arrays are the edge lengths computed by the constructor. -/
structure EdgesOf3 (C : Conductor 3) (G : Mesh 3) (l : Edges3) : Prop where
  x : ∀ i j k, edgeLength C G 1e-8 0 ![i, j, k] = .ok (.fin (l.x i j k))
  y : ∀ i j k, edgeLength C G 1e-8 1 ![i, j, k] = .ok (.fin (l.y i j k))
  z : ∀ i j k, edgeLength C G 1e-8 2 ![i, j, k] = .ok (.fin (l.z i j k))

/-- Fraction of the edge along axis `a` from node `k` that is outside the conductor. -/
def freeFraction3 (C : Conductor 3) (G : Mesh 3) (a : Fin 3) (k : Fin 3 → ℕ) : ℝ :=
  freeLength C a (G.node k) (G.node k a) (G.node k a + G.d a) / G.d a

/-- Fraction of the face spanned by the axes `a` and `b` at node `k` that is outside the conductor. -/
def freeFace (C : Conductor 3) (G : Mesh 3) (a b : Fin 3) (k : Fin 3 → ℕ) : ℝ :=
  (volume {p : ℝ × ℝ | (p.1 ∈ Ioo (0 : ℝ) 1 ∧ p.2 ∈ Ioo (0 : ℝ) 1) ∧
    ¬ C.inC (Function.update (Function.update (G.node k) a (G.node k a + G.d a * p.1)) b (G.node k b + G.d b * p.2))}).toReal

/-- No edge of the face spanned by `a` and `b` at node `k` is cut within the tolerance of one of its ends. -/
def FaceClear (C : Conductor 3) (G : Mesh 3) (a b : Fin 3) (k : Fin 3 → ℕ) : Prop :=
  Clear (freeFraction3 C G a k) ∧ Clear (freeFraction3 C G b k) ∧ Clear (freeFraction3 C G a (Function.update k b (k b + 1))) ∧
    Clear (freeFraction3 C G b (Function.update k a (k a + 1)))

/-- A face that the constructor marks as unstable, in any of the three directions. -/
def SomeUnstable (l : Edges3) (d : Fin 3 → ℝ) (nx ny nz : ℕ) : Prop :=
  (∃ i j k, i < nx ∧ j < ny ∧ k ≤ nz ∧ (markCell (l.xy k).1 (l.xy k).2 (areas (l.xy k).1 (l.xy k).2 (d 0) (d 1)) (d 0) (d 1) i j).unst) ∨
  (∃ i j k, i ≤ nx ∧ j < ny ∧ k < nz ∧ (markCell (l.yz i).1 (l.yz i).2 (areas (l.yz i).1 (l.yz i).2 (d 1) (d 2)) (d 1) (d 2) j k).unst) ∨
  ∃ i j k, i < nx ∧ j ≤ ny ∧ k < nz ∧ (markCell (l.zx j).1 (l.zx j).2 (areas (l.zx j).1 (l.zx j).2 (d 0) (d 2)) (d 0) (d 2) i k).unst

/-- Lengths between 0 and the size of the cell. -/
structure Edges3.Within (l : Edges3) (d : Fin 3 → ℝ) : Prop where
  x : ∀ i j k, 0 ≤ l.x i j k ∧ l.x i j k ≤ d 0
  y : ∀ i j k, 0 ≤ l.y i j k ∧ l.y i j k ≤ d 1
  z : ∀ i j k, 0 ≤ l.z i j k ∧ l.z i j k ≤ d 2

/-! ### Faces of a half space -/

lemma plane3_half (q nn p : Fin 3 → ℝ) : ¬ (plane3 q nn).inC p ↔ ∑ c, -nn c * p c < -∑ c, nn c * q c := by
  simp only [plane3, not_le, Fin.sum_univ_three]
  constructor <;> intro h <;> linarith

lemma sum_update (w p : Fin 3 → ℝ) (a : Fin 3) (t : ℝ) : ∑ c, w c * Function.update p a t c = ∑ c, w c * p c - w a * p a + w a * t := by
  fin_cases a <;> simp [Fin.sum_univ_three] <;> ring

lemma fraction3 (q nn : Fin 3 → ℝ) (G : Mesh 3) (a : Fin 3) (hd : 0 < G.d a) (k : Fin 3 → ℕ) :
    freeFraction3 (plane3 q nn) G a k = seg (-nn a * G.d a) (-∑ c, nn c * q c - ∑ c, -nn c * G.node k c) := by
  have e : -∑ c, nn c * q c - ∑ c, -nn c * G.node k c = (-∑ c, nn c * q c - (∑ c, -nn c * G.node k c - -nn a * G.node k a)) - -nn a * G.node k a := by ring
  rw [e, ← scale_seg hd]
  unfold freeFraction3 freeLength
  congr 3
  ext t
  simp only [mem_ofPred_eq, plane3_half, sum_update]
  refine and_congr_right fun _ => ?_
  constructor <;> intro h <;> linarith

lemma node_step (w : Fin 3 → ℝ) (G : Mesh 3) (b : Fin 3) (k : Fin 3 → ℕ) :
    ∑ c, w c * G.node (Function.update k b (k b + 1)) c = ∑ c, w c * G.node k c + w b * G.d b := by
  have : G.node (Function.update k b (k b + 1)) = Function.update (G.node k) b (G.node k b + G.d b) := by
    funext c
    by_cases h : c = b
    · subst h; simp [Mesh.node]; ring
    · simp [Mesh.node, Function.update_of_ne h]
  rw [this, sum_update]; ring

lemma face_half (q nn : Fin 3 → ℝ) (G : Mesh 3) (a b : Fin 3) (hab : a ≠ b) (ha : 0 < G.d a) (hb : 0 < G.d b) (k : Fin 3 → ℕ)
    (h : FaceClear (plane3 q nn) G a b k) :
    cellArea (freeFraction3 (plane3 q nn) G a k) (freeFraction3 (plane3 q nn) G b k) (freeFraction3 (plane3 q nn) G a (Function.update k b (k b + 1)))
      (freeFraction3 (plane3 q nn) G b (Function.update k a (k a + 1))) = freeFace (plane3 q nn) G a b k := by
  obtain ⟨h1, h2, h3, h4⟩ := h
  rw [fraction3 q nn G a ha] at h1 h3
  rw [fraction3 q nn G b hb] at h2 h4
  rw [fraction3 q nn G a ha, fraction3 q nn G b hb, fraction3 q nn G a ha, fraction3 q nn G b hb]
  have et : -∑ c, nn c * q c - ∑ c, -nn c * G.node (Function.update k b (k b + 1)) c =
      (-∑ c, nn c * q c - ∑ c, -nn c * G.node k c) - -nn b * G.d b := by rw [node_step]; ring
  have er : -∑ c, nn c * q c - ∑ c, -nn c * G.node (Function.update k a (k a + 1)) c =
      (-∑ c, nn c * q c - ∑ c, -nn c * G.node k c) - -nn a * G.d a := by rw [node_step]; ring
  rw [et] at h3 ⊢
  rw [er] at h4 ⊢
  rw [areaOK _ _ _ h1 h2 h3 h4]
  unfold freeFace cut
  congr 2
  ext p
  simp only [mem_ofPred_eq, plane3_half, sum_update, Function.update_of_ne hab.symm]
  refine and_congr_right fun _ => ?_
  constructor <;> intro h <;> linarith

lemma edge3 (q nn : Fin 3 → ℝ) (G : Mesh 3) (a : Fin 3) (k : Fin 3 → ℕ) (l : ℝ) (hd : 0 < G.d a) (he : edgeLength (plane3 q nn) G 1e-8 a k = .ok (.fin l))
    (hc : Clear (freeFraction3 (plane3 q nn) G a k)) : l / G.d a = freeFraction3 (plane3 q nn) G a k := by
  obtain ⟨l', he', hl'⟩ := C84_plane3 q nn G 1e-8 a k hd (by norm_num)
  rw [he] at he'
  obtain rfl : l = l' := by simpa using he'
  exact clear_length rfl hd hl' hc

/-- **C98 (areas).** In a three-dimensional grid cut by a plane, the area computed for a face in each of the three directions is the fraction of that face outside the conductor,
whenever no edge of the face is cut within the tolerance of one of its ends. -/
theorem C98_area_plane (q nn : Fin 3 → ℝ) (G : Mesh 3) (hd : ∀ a, 0 < G.d a) (l : Edges3) (hE : EdgesOf3 (plane3 q nn) G l) (i j k : ℕ) :
    (FaceClear (plane3 q nn) G 0 1 ![i, j, k] → areaXY l G.d i j k = freeFace (plane3 q nn) G 0 1 ![i, j, k]) ∧
    (FaceClear (plane3 q nn) G 1 2 ![i, j, k] → areaYZ l G.d i j k = freeFace (plane3 q nn) G 1 2 ![i, j, k]) ∧
    (FaceClear (plane3 q nn) G 0 2 ![i, j, k] → areaZX l G.d i j k = freeFace (plane3 q nn) G 0 2 ![i, j, k]) := by
  have u0 : Function.update (![i, j, k] : Fin 3 → ℕ) 0 (i + 1) = ![i + 1, j, k] := by funext c; fin_cases c <;> simp [Function.update]
  have u1 : Function.update (![i, j, k] : Fin 3 → ℕ) 1 (j + 1) = ![i, j + 1, k] := by funext c; fin_cases c <;> simp [Function.update]
  have u2 : Function.update (![i, j, k] : Fin 3 → ℕ) 2 (k + 1) = ![i, j, k + 1] := by funext c; fin_cases c <;> simp [Function.update]
  refine ⟨fun h => ?_, fun h => ?_, fun h => ?_⟩
  · rw [← face_half q nn G 0 1 (by decide) (hd 0) (hd 1) _ h]
    obtain ⟨h1, h2, h3, h4⟩ := h
    simp only [Matrix.cons_val_zero, Matrix.cons_val_one, Matrix.cons_val, u0, u1] at h3 h4 ⊢
    unfold areaXY areas Edges3.xy
    rw [edge3 q nn G 0 _ _ (hd 0) (hE.x i j k) h1, edge3 q nn G 1 _ _ (hd 1) (hE.y i j k) h2, edge3 q nn G 0 _ _ (hd 0) (hE.x i (j + 1) k) h3,
      edge3 q nn G 1 _ _ (hd 1) (hE.y (i + 1) j k) h4]
  · rw [← face_half q nn G 1 2 (by decide) (hd 1) (hd 2) _ h]
    obtain ⟨h1, h2, h3, h4⟩ := h
    simp only [Matrix.cons_val_zero, Matrix.cons_val_one, Matrix.cons_val, u1, u2] at h3 h4 ⊢
    unfold areaYZ areas Edges3.yz
    rw [edge3 q nn G 1 _ _ (hd 1) (hE.y i j k) h1, edge3 q nn G 2 _ _ (hd 2) (hE.z i j k) h2, edge3 q nn G 1 _ _ (hd 1) (hE.y i j (k + 1)) h3,
      edge3 q nn G 2 _ _ (hd 2) (hE.z i (j + 1) k) h4]
  · rw [← face_half q nn G 0 2 (by decide) (hd 0) (hd 2) _ h]
    obtain ⟨h1, h2, h3, h4⟩ := h
    simp only [Matrix.cons_val_zero, Matrix.cons_val_one, Matrix.cons_val, u0, u2] at h3 h4 ⊢
    unfold areaZX areas Edges3.zx
    rw [edge3 q nn G 0 _ _ (hd 0) (hE.x i j k) h1, edge3 q nn G 2 _ _ (hd 2) (hE.z i j k) h2, edge3 q nn G 0 _ _ (hd 0) (hE.x i j (k + 1)) h3,
      edge3 q nn G 2 _ _ (hd 2) (hE.z (i + 1) j k) h4]

/-! ### The constructor of the enlarged cell technique -/

lemma ext_cases {lx ly : ℕ → ℕ → ℝ} {dx dy : ℝ} (hx : 0 < dx) (hy : 0 < dy) (hlx : ∀ i j, 0 ≤ lx i j ∧ lx i j ≤ dx)
    (hly : ∀ i j, 0 ≤ ly i j ∧ ly i j ≤ dy) (nx ny : ℕ) :
    ((∀ i j, i < nx → j < ny → ¬ (markCell lx ly (areas lx ly dx dy) dx dy i j).unst) →
      extensions (ectIn lx ly dx dy nx ny) (ectStart (ectIn lx ly dx dy nx ny)) = .ok (ectStart (ectIn lx ly dx dy nx ny))) ∧
    ((∃ i j, i < nx ∧ j < ny ∧ (markCell lx ly (areas lx ly dx dy) dx dy i j).unst) →
      extensions (ectIn lx ly dx dy nx ny) (ectStart (ectIn lx ly dx dy nx ny)) = .error .indexError ∨
      extensions (ectIn lx ly dx dy nx ny) (ectStart (ectIn lx ly dx dy nx ny)) = .error .runtimeError) := by
  have hM := ectIn_marked lx ly dx dy hx hy hlx hly nx ny
  rw [C88_constructor_refuted _ hM]
  constructor
  · intro h
    have hno : ¬ ∃ c ∈ cells (ectIn lx ly dx dy nx ny).nx (ectIn lx ly dx dy nx ny).ny, (ectIn lx ly dx dy nx ny).unst c := by
      rintro ⟨c, hc, hu⟩
      exact h c.1 c.2 (mem_cells.1 hc).1 (mem_cells.1 hc).2 hu
    have hf : ¬ OnFarEdge (ectIn lx ly dx dy nx ny) := fun ⟨c, hc, hu, _⟩ => hno ⟨c, hc, hu⟩
    rw [if_neg hf, if_neg hno]
  · rintro ⟨i, j, hi, hj, hu⟩
    by_cases hf : OnFarEdge (ectIn lx ly dx dy nx ny)
    · left; rw [if_pos hf]
    · right; rw [if_neg hf, if_pos ⟨(i, j), mem_cells.2 ⟨hi, hj⟩, hu⟩]

lemma mapM_ok {α β : Type} {f : α → Py β} {g : α → β} : ∀ {l : List α}, (∀ a ∈ l, f a = .ok (g a)) → l.mapM f = .ok (l.map g)
  | [], _ => rfl
  | a :: l, h => by
    rw [List.mapM_cons, h a (by simp), mapM_ok (l := l) fun b hb => h b (by simp [hb])]; rfl

lemma mapM_error {α β : Type} {f : α → Py β} {g : α → β} {P : PyErr → Prop} : ∀ {l : List α}, (∀ a ∈ l, f a = .ok (g a) ∨ ∃ e, P e ∧ f a = .error e) →
    (∃ a ∈ l, ∃ e, f a = .error e) → ∃ e, P e ∧ l.mapM f = .error e
  | [], _, h => by obtain ⟨_, h, _⟩ := h; simp at h
  | a :: l, hc, h => by
    rw [List.mapM_cons]
    rcases hc a (by simp) with h1 | ⟨e, he, h1⟩
    · rw [h1]
      obtain ⟨b, hb, e, hbe⟩ := h
      rcases List.mem_cons.1 hb with rfl | hb
      · rw [h1] at hbe; cases hbe
      · obtain ⟨e', he', h'⟩ := mapM_error (l := l) (fun c hc' => hc c (by simp [hc'])) ⟨b, hb, e, hbe⟩
        exact ⟨e', he', by rw [h']; rfl⟩
    · exact ⟨e, he, by rw [h1]; rfl⟩

/-- What a plane contributes: its start state if none of its faces is marked, an exception otherwise. -/
lemma plane_cases {ι : Type} (m : List ι) (I : ι → ExtIn) (U : ι → Prop)
    (h1 : ∀ a ∈ m, ¬ U a → extensions (I a) (ectStart (I a)) = .ok (ectStart (I a)))
    (h2 : ∀ a ∈ m, U a → extensions (I a) (ectStart (I a)) = .error .indexError ∨ extensions (I a) (ectStart (I a)) = .error .runtimeError) :
    ((∀ a ∈ m, ¬ U a) → m.mapM (fun a => extensions (I a) (ectStart (I a))) = .ok (m.map fun a => ectStart (I a))) ∧
    ((∃ a ∈ m, U a) → ∃ e, (e = .indexError ∨ e = .runtimeError) ∧ m.mapM (fun a => extensions (I a) (ectStart (I a))) = .error e) := by
  constructor
  · exact fun h => mapM_ok fun a ha => h1 a ha (h a ha)
  · rintro ⟨a, ha, hu⟩
    refine mapM_error (g := fun a => ectStart (I a)) (P := fun e => e = .indexError ∨ e = .runtimeError) (fun b hb => ?_) ⟨a, ha, ?_⟩
    · by_cases hub : U b
      · rcases h2 b hb hub with h | h
        · exact .inr ⟨_, .inl rfl, h⟩
        · exact .inr ⟨_, .inr rfl, h⟩
      · exact .inl (h1 b hb hub)
    · rcases h2 a ha hu with h | h
      · exact ⟨_, h⟩
      · exact ⟨_, h⟩

/-- **C98 (refuted: enlarged cells).** The constructor for the enlarged cell technique succeeds exactly if no face in any direction is marked as unstable, and then enlarges nothing;
otherwise it raises IndexError or RuntimeError. -/
theorem C98_ect_refuted (l : Edges3) (d : Fin 3 → ℝ) (hd : ∀ a, 0 < d a) (hl : l.Within d) (nx ny nz : ℕ) :
    (¬ SomeUnstable l d nx ny nz → ect3 l d nx ny nz = .ok ((List.range (nz + 1)).map (fun k => ectStart (inXY l d nx ny k)),
      (List.range (nx + 1)).map (fun i => ectStart (inYZ l d ny nz i)), (List.range (ny + 1)).map (fun j => ectStart (inZX l d nx nz j)))) ∧
    (SomeUnstable l d nx ny nz → ect3 l d nx ny nz = .error .indexError ∨ ect3 l d nx ny nz = .error .runtimeError) := by
  have pxy := plane_cases (List.range (nz + 1)) (inXY l d nx ny)
    (fun k => ∃ i j, i < nx ∧ j < ny ∧ (markCell (l.xy k).1 (l.xy k).2 (areas (l.xy k).1 (l.xy k).2 (d 0) (d 1)) (d 0) (d 1) i j).unst)
    (fun k _ h => (ext_cases (hd 0) (hd 1) (fun i j => hl.x i j k) (fun i j => hl.y i j k) nx ny).1 fun i j hi hj hu => h ⟨i, j, hi, hj, hu⟩)
    (fun k _ h => (ext_cases (hd 0) (hd 1) (fun i j => hl.x i j k) (fun i j => hl.y i j k) nx ny).2 h)
  have pyz := plane_cases (List.range (nx + 1)) (inYZ l d ny nz)
    (fun i => ∃ j k, j < ny ∧ k < nz ∧ (markCell (l.yz i).1 (l.yz i).2 (areas (l.yz i).1 (l.yz i).2 (d 1) (d 2)) (d 1) (d 2) j k).unst)
    (fun i _ h => (ext_cases (hd 1) (hd 2) (fun j k => hl.y i j k) (fun j k => hl.z i j k) ny nz).1 fun j k hj hk hu => h ⟨j, k, hj, hk, hu⟩)
    (fun i _ h => (ext_cases (hd 1) (hd 2) (fun j k => hl.y i j k) (fun j k => hl.z i j k) ny nz).2 h)
  have pzx := plane_cases (List.range (ny + 1)) (inZX l d nx nz)
    (fun j => ∃ i k, i < nx ∧ k < nz ∧ (markCell (l.zx j).1 (l.zx j).2 (areas (l.zx j).1 (l.zx j).2 (d 0) (d 2)) (d 0) (d 2) i k).unst)
    (fun j _ h => (ext_cases (hd 0) (hd 2) (fun i k => hl.x i j k) (fun i k => hl.z i j k) nx nz).1 fun i k hi hk hu => h ⟨i, k, hi, hk, hu⟩)
    (fun j _ h => (ext_cases (hd 0) (hd 2) (fun i k => hl.x i j k) (fun i k => hl.z i j k) nx nz).2 h)
  have good : ∀ e : PyErr, (e = .indexError ∨ e = .runtimeError) → ∀ r : Py (List ExtSt × List ExtSt × List ExtSt), r = .error e →
      r = .error .indexError ∨ r = .error .runtimeError := by
    rintro e (rfl | rfl) r h
    · exact .inl h
    · exact .inr h
  unfold ect3
  constructor
  · intro h
    rw [pxy.1 fun k hk ⟨i, j, hi, hj, hu⟩ => h (.inl ⟨i, j, k, hi, hj, by have := List.mem_range.1 hk; omega, hu⟩),
      pyz.1 fun i hi ⟨j, k, hj, hk, hu⟩ => h (.inr (.inl ⟨i, j, k, by have := List.mem_range.1 hi; omega, hj, hk, hu⟩)),
      pzx.1 fun j hj ⟨i, k, hi, hk, hu⟩ => h (.inr (.inr ⟨i, j, k, hi, by have := List.mem_range.1 hj; omega, hk, hu⟩))]
    rfl
  · intro h
    by_cases c1 : ∃ k ∈ List.range (nz + 1), ∃ i j, i < nx ∧ j < ny ∧
        (markCell (l.xy k).1 (l.xy k).2 (areas (l.xy k).1 (l.xy k).2 (d 0) (d 1)) (d 0) (d 1) i j).unst
    · obtain ⟨e, he, h1⟩ := pxy.2 c1
      exact good e he _ (by rw [h1]; rfl)
    rw [pxy.1 fun k hk hu => c1 ⟨k, hk, hu⟩]
    by_cases c2 : ∃ i ∈ List.range (nx + 1), ∃ j k, j < ny ∧ k < nz ∧
        (markCell (l.yz i).1 (l.yz i).2 (areas (l.yz i).1 (l.yz i).2 (d 1) (d 2)) (d 1) (d 2) j k).unst
    · obtain ⟨e, he, h1⟩ := pyz.2 c2
      exact good e he _ (by rw [h1]; rfl)
    rw [pyz.1 fun k hk hu => c2 ⟨k, hk, hu⟩]
    have c3 : ∃ j ∈ List.range (ny + 1), ∃ i k, i < nx ∧ k < nz ∧
        (markCell (l.zx j).1 (l.zx j).2 (areas (l.zx j).1 (l.zx j).2 (d 0) (d 2)) (d 0) (d 2) i k).unst := by
      rcases h with ⟨i, j, k, hi, hj, hk, hu⟩ | ⟨i, j, k, hi, hj, hk, hu⟩ | ⟨i, j, k, hi, hj, hk, hu⟩
      · exact absurd ⟨k, List.mem_range.2 (by omega), i, j, hi, hj, hu⟩ c1
      · exact absurd ⟨i, List.mem_range.2 (by omega), j, k, hj, hk, hu⟩ c2
      · exact ⟨j, List.mem_range.2 (by omega), i, k, hi, hk, hu⟩
    obtain ⟨e, he, h1⟩ := pzx.2 c3
    exact good e he _ (by rw [h1]; rfl)

/-- An uncut face is marked as unstable exactly if it is larger than two square units. -/
lemma full_unst (dx dy : ℝ) (hx : 0 < dx) (hy : 0 < dy) (i j : ℕ) :
    (markCell (fun _ _ => dx) (fun _ _ => dy) (areas (fun _ _ => dx) (fun _ _ => dy) dx dy) dx dy i j).unst ↔ 2 < dx * dy := by
  have hA := (C86_ends (fun _ _ => dx) (fun _ _ => dy) dx dy hx hy i j).1 rfl rfl rfl rfl
  show areas (fun _ _ => dx) (fun _ _ => dy) dx dy i j < (if areas (fun _ _ => dx) (fun _ _ => dy) dx dy i j > 0 then _ else _) ↔ _
  rw [hA, if_pos (by norm_num), mul_comm dy dx, max_self, max_self]
  constructor <;> intro h <;> norm_num at h ⊢ <;> linarith

/-- **C98 (refuted: empty box).** Without any conductor, a grid for the enlarged cell technique can be built exactly if no face of a cell is larger than two square units of length,
whatever the unit is. -/
theorem C98_empty_box_refuted (d : Fin 3 → ℝ) (hd : ∀ a, 0 < d a) (nx ny nz : ℕ) (hx : 0 < nx) (hy : 0 < ny) (hz : 0 < nz) :
    (∃ r, ect3 ⟨fun _ _ _ => d 0, fun _ _ _ => d 1, fun _ _ _ => d 2⟩ d nx ny nz = .ok r) ↔ d 0 * d 1 ≤ 2 ∧ d 1 * d 2 ≤ 2 ∧ d 0 * d 2 ≤ 2 := by
  have hW : Edges3.Within ⟨fun _ _ _ => d 0, fun _ _ _ => d 1, fun _ _ _ => d 2⟩ d :=
    ⟨fun _ _ _ => ⟨(hd 0).le, le_rfl⟩, fun _ _ _ => ⟨(hd 1).le, le_rfl⟩, fun _ _ _ => ⟨(hd 2).le, le_rfl⟩⟩
  have hU : SomeUnstable ⟨fun _ _ _ => d 0, fun _ _ _ => d 1, fun _ _ _ => d 2⟩ d nx ny nz ↔ 2 < d 0 * d 1 ∨ 2 < d 1 * d 2 ∨ 2 < d 0 * d 2 := by
    unfold SomeUnstable Edges3.xy Edges3.yz Edges3.zx
    simp only [full_unst _ _ (hd 0) (hd 1), full_unst _ _ (hd 1) (hd 2), full_unst _ _ (hd 0) (hd 2)]
    refine or_congr ⟨fun ⟨_, _, _, _, _, _, h⟩ => h, fun h => ⟨0, 0, 0, hx, hy, by omega, h⟩⟩
      (or_congr ⟨fun ⟨_, _, _, _, _, _, h⟩ => h, fun h => ⟨0, 0, 0, by omega, hy, hz, h⟩⟩ ⟨fun ⟨_, _, _, _, _, _, h⟩ => h, fun h => ⟨0, 0, 0, hx, by omega, hz, h⟩⟩)
  obtain ⟨h1, h2⟩ := C98_ect_refuted _ d hd hW nx ny nz
  rw [hU] at h1 h2
  constructor
  · rintro ⟨r, hr⟩
    by_contra hn
    have : 2 < d 0 * d 1 ∨ 2 < d 1 * d 2 ∨ 2 < d 0 * d 2 := by
      by_contra hh
      push Not at hh
      exact hn hh
    rcases h2 this with h | h <;> rw [h] at hr <;> cases hr
  · intro h
    exact ⟨_, h1 (by rintro (h' | h' | h') <;> linarith [h.1, h.2.1, h.2.2])⟩

/-! ### The metric of the 'FIT' branch -/

/-- **C98 (metric).** With `sol_type='FIT'` the cell lengths are the extents divided by the numbers of cells, the same in every cell. Along x and y they are the `dx` and `dy` of the
object; along z they are its `dz` exactly if the box is as long along z as along y. -/
theorem C98_fit_partial (lo hi : Fin 3 → ℝ) (N : Fin 3 → ℕ) (hN : ∀ a, 0 < N a) (hlh : ∀ a, lo a < hi a) (i j k : ℕ) (hi' : i < N 0) (hj : j < N 1) (hk : k < N 2) :
    (fit3 lo hi N).L.get i j k (.str "x") = .ok ((mesh3 lo hi N).d 0) ∧ (fit3 lo hi N).L.get i j k (.str "y") = .ok ((mesh3 lo hi N).d 1) ∧
    (fit3 lo hi N).L.get i j k (.str "z") = .ok ((hi 2 - lo 2) / N 2) ∧
    ((fit3 lo hi N).L.get i j k (.str "z") = .ok ((mesh3 lo hi N).d 2) ↔ hi 2 - lo 2 = hi 1 - lo 1) := by
  obtain ⟨-, -, ux, ix⟩ := Grid.C09_uniform (lo 0) (hi 0) (hlh 0) (N 0) (hN 0)
  obtain ⟨-, -, uy, iy⟩ := Grid.C09_uniform (lo 1) (hi 1) (hlh 1) (N 1) (hN 1)
  obtain ⟨-, -, uz, iz⟩ := Grid.C09_uniform (lo 2) (hi 2) (hlh 2) (N 2) (hN 2)
  obtain ⟨h1, h2, h3, -⟩ := Grid.C09_lengths (N 0) (N 1) (N 2) _ _ _ ix iy iz hi' hj hk
  rw [ux i hi'] at h1
  rw [uy j hj] at h2
  rw [uz k hk] at h3
  have e3 : (fit3 lo hi N).L.get i j k (.str "z") = .ok ((hi 2 - lo 2) / N 2) := by
    unfold fit3 Grid.uniform; convert h3
  refine ⟨by unfold fit3 Grid.uniform; convert h1 using 1; all_goals simp [mesh3], by unfold fit3 Grid.uniform; convert h2 using 1; all_goals simp [mesh3], e3, ?_⟩
  rw [e3]
  have hz : (N 2 : ℝ) ≠ 0 := by exact_mod_cast (hN 2).ne'
  show Except.ok _ = Except.ok ((hi 1 - lo 1) / (N 2 : ℝ)) ↔ _
  rw [Except.ok.injEq, div_left_inj' hz]

/-- A box cut by a plane has edges and faces as `C98_area_plane` asks for. -/
example : ∃ l, EdgesOf3 (plane3 ![1 / 2, 1 / 2, 1 / 2] ![-1, -1, -1]) ⟨![0, 0, 0], ![1, 1, 1]⟩ l := by
  have h : ∀ a k, ∃ l, edgeLength (plane3 ![1 / 2, 1 / 2, 1 / 2] ![-1, -1, -1]) ⟨![0, 0, 0], ![1, 1, 1]⟩ 1e-8 a k = .ok (.fin l) := fun a k =>
    (C84_plane3 _ _ ⟨![0, 0, 0], ![1, 1, 1]⟩ 1e-8 a k (by fin_cases a <;> simp) (by norm_num)).imp fun _ h => h.1
  choose f hf using h
  exact ⟨⟨fun i j k => f 0 ![i, j, k], fun i j k => f 1 ![i, j, k], fun i j k => f 2 ![i, j, k]⟩, fun i j k => hf _ _, fun i j k => hf _ _, fun i j k => hf _ _⟩

/-- Its face at the origin is a square with one corner cut off. -/
example : FaceClear (plane3 ![1 / 2, 1 / 2, 1 / 2] ![-1, -1, -1]) ⟨![0, 0, 0], ![1, 1, 1]⟩ 0 1 ![0, 0, 0] := by
  have full : seg 1 (3 / 2) = 1 := seg_full fun u _ h => by linarith
  have half : seg 1 (1 / 2) = 1 / 2 := by rw [seg_pos] <;> norm_num
  have f : ∀ a k γ, 3 / 2 - ((k 0 : ℝ) + k 1 + k 2) = γ →
      freeFraction3 (plane3 ![1 / 2, 1 / 2, 1 / 2] ![-1, -1, -1]) ⟨![0, 0, 0], ![1, 1, 1]⟩ a k = seg 1 γ := by
    intro a k γ h
    rw [fraction3 _ _ _ _ (by fin_cases a <;> simp), ← h]
    congr 1
    · fin_cases a <;> simp
    · simp [Fin.sum_univ_three, Mesh.node]; ring
  refine ⟨?_, ?_, ?_, ?_⟩
  · rw [f _ _ (3 / 2) (by simp), full]; exact .inr (.inl rfl)
  · rw [f _ _ (3 / 2) (by simp), full]; exact .inr (.inl rfl)
  · rw [f _ _ (1 / 2) (by simp [Function.update]; norm_num), half]; exact .inr (.inr (by norm_num))
  · rw [f _ _ (1 / 2) (by simp [Function.update]; norm_num), half]; exact .inr (.inr (by norm_num))

/-- Cells of size one: the empty grid can be built. -/
example : ∃ r, ect3 ⟨fun _ _ _ => 1, fun _ _ _ => 1, fun _ _ _ => 1⟩ (fun _ => 1) 3 4 5 = .ok r :=
  (C98_empty_box_refuted (fun _ => 1) (fun _ => one_pos) 3 4 5 (by norm_num) (by norm_num) (by norm_num)).2 (by norm_num)

/-- Cells of two units: it cannot. -/
example : ¬ ∃ r, ect3 ⟨fun _ _ _ => 2, fun _ _ _ => 2, fun _ _ _ => 2⟩ (fun _ => 2) 3 4 5 = .ok r := fun h => by
  have := (C98_empty_box_refuted (fun _ => 2) (fun _ => two_pos) 3 4 5 (by norm_num) (by norm_num) (by norm_num)).1 h
  norm_num at this

end
end Cond
end Wakis
