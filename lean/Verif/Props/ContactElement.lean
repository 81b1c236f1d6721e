import Verif.Props.ContactPatch
import Mathlib.Data.List.FinRange

/-!
# C78: the penetration test
# C79: local coordinates of a contact point
-/

set_option linter.unusedSimpArgs false

namespace Fierro
open Contact

/-! ### Parallelepipeds (specification) -/

/-- Sign of local coordinate `d` at node `k` of the reference cube. -/
def hexSign {K : Type} [Field K] (k : Fin 8) (d : Fin 3) : K :=
  if (k.val / 2 ^ d.val) % 2 = 1 then 1 else -1

/-- Nodes of the parallelepiped with centre `c` and half-edges `e · 0`, `e · 1`, `e · 2`. -/
def boxElem {K : Type} [Field K] (c : Fin 3 → K) (e : Fin 3 → Fin 3 → K) (i : Fin 3) (k : Fin 8) : K :=
  c i + (hexSign k 0 * e i 0 + hexSign k 1 * e i 1 + hexSign k 2 * e i 2)

/-- Half-edge number `d`. -/
def edge {K : Type} (e : Fin 3 → Fin 3 → K) (d : Fin 3) (i : Fin 3) : K := e i d

/-- Centre of a face of an element: the mean of its nodes. -/
noncomputable def faceCentre (E : Fin 3 → Fin 8 → ℝ) (f : Fin 6) (i : Fin 3) : ℝ :=
  (E i (faceNode f 0) + E i (faceNode f 1) + E i (faceNode f 2) + E i (faceNode f 3)) / 4

/-- Half the distance of the two faces in direction `d` of a parallelepiped. -/
noncomputable def halfHeight (e : Fin 3 → Fin 3 → ℝ) (d : Fin 3) : ℝ :=
  det e / len (cross (edge e (d + 1)) (edge e (d + 2)))

namespace Contact

section signs
variable {K : Type} [Field K]
theorem hexSign_00 : (hexSign 0 0 : K) = -1 := rfl
theorem hexSign_01 : (hexSign 0 1 : K) = -1 := rfl
theorem hexSign_02 : (hexSign 0 2 : K) = -1 := rfl
theorem hexSign_10 : (hexSign 1 0 : K) = 1 := rfl
theorem hexSign_11 : (hexSign 1 1 : K) = -1 := rfl
theorem hexSign_12 : (hexSign 1 2 : K) = -1 := rfl
theorem hexSign_20 : (hexSign 2 0 : K) = -1 := rfl
theorem hexSign_21 : (hexSign 2 1 : K) = 1 := rfl
theorem hexSign_22 : (hexSign 2 2 : K) = -1 := rfl
theorem hexSign_30 : (hexSign 3 0 : K) = 1 := rfl
theorem hexSign_31 : (hexSign 3 1 : K) = 1 := rfl
theorem hexSign_32 : (hexSign 3 2 : K) = -1 := rfl
theorem hexSign_40 : (hexSign 4 0 : K) = -1 := rfl
theorem hexSign_41 : (hexSign 4 1 : K) = -1 := rfl
theorem hexSign_42 : (hexSign 4 2 : K) = 1 := rfl
theorem hexSign_50 : (hexSign 5 0 : K) = 1 := rfl
theorem hexSign_51 : (hexSign 5 1 : K) = -1 := rfl
theorem hexSign_52 : (hexSign 5 2 : K) = 1 := rfl
theorem hexSign_60 : (hexSign 6 0 : K) = -1 := rfl
theorem hexSign_61 : (hexSign 6 1 : K) = 1 := rfl
theorem hexSign_62 : (hexSign 6 2 : K) = 1 := rfl
theorem hexSign_70 : (hexSign 7 0 : K) = 1 := rfl
theorem hexSign_71 : (hexSign 7 1 : K) = 1 := rfl
theorem hexSign_72 : (hexSign 7 2 : K) = 1 := rfl
end signs

section box
variable {K : Type} [Field K] [CharZero K]

theorem box_pos (c : Fin 3 → K) (e : Fin 3 → Fin 3 → K) (p : Fin 3 → K) (i : Fin 3) :
    hexPos (boxElem c e) p i = c i + (p 0 * e i 0 + p 1 * e i 1 + p 2 * e i 2) := by
  simp only [hexPos, Fin.sum_univ_eight, boxElem, hexPhi_0, hexPhi_1, hexPhi_2, hexPhi_3, hexPhi_4, hexPhi_5, hexPhi_6, hexPhi_7, hexSign_00, hexSign_01, hexSign_02, hexSign_10, hexSign_11, hexSign_12, hexSign_20, hexSign_21, hexSign_22, hexSign_30, hexSign_31, hexSign_32, hexSign_40, hexSign_41, hexSign_42, hexSign_50, hexSign_51, hexSign_52, hexSign_60, hexSign_61, hexSign_62, hexSign_70, hexSign_71, hexSign_72]
  ring

theorem box_jac (c : Fin 3 → K) (e : Fin 3 → Fin 3 → K) (p : Fin 3 → K) :
    hexJac (boxElem c e) p = e := by
  funext i d
  match d with
  | 0 => simp only [hexJac, Fin.sum_univ_eight, boxElem, hexDphi_00, hexDphi_01, hexDphi_02, hexDphi_10, hexDphi_11, hexDphi_12, hexDphi_20, hexDphi_21, hexDphi_22, hexDphi_30, hexDphi_31, hexDphi_32, hexDphi_40, hexDphi_41, hexDphi_42, hexDphi_50, hexDphi_51, hexDphi_52, hexDphi_60, hexDphi_61, hexDphi_62, hexDphi_70, hexDphi_71, hexDphi_72, hexSign_00, hexSign_01, hexSign_02, hexSign_10, hexSign_11, hexSign_12, hexSign_20, hexSign_21, hexSign_22, hexSign_30, hexSign_31, hexSign_32, hexSign_40, hexSign_41, hexSign_42, hexSign_50, hexSign_51, hexSign_52, hexSign_60, hexSign_61, hexSign_62, hexSign_70, hexSign_71, hexSign_72]; ring
  | 1 => simp only [hexJac, Fin.sum_univ_eight, boxElem, hexDphi_00, hexDphi_01, hexDphi_02, hexDphi_10, hexDphi_11, hexDphi_12, hexDphi_20, hexDphi_21, hexDphi_22, hexDphi_30, hexDphi_31, hexDphi_32, hexDphi_40, hexDphi_41, hexDphi_42, hexDphi_50, hexDphi_51, hexDphi_52, hexDphi_60, hexDphi_61, hexDphi_62, hexDphi_70, hexDphi_71, hexDphi_72, hexSign_00, hexSign_01, hexSign_02, hexSign_10, hexSign_11, hexSign_12, hexSign_20, hexSign_21, hexSign_22, hexSign_30, hexSign_31, hexSign_32, hexSign_40, hexSign_41, hexSign_42, hexSign_50, hexSign_51, hexSign_52, hexSign_60, hexSign_61, hexSign_62, hexSign_70, hexSign_71, hexSign_72]; ring
  | 2 => simp only [hexJac, Fin.sum_univ_eight, boxElem, hexDphi_00, hexDphi_01, hexDphi_02, hexDphi_10, hexDphi_11, hexDphi_12, hexDphi_20, hexDphi_21, hexDphi_22, hexDphi_30, hexDphi_31, hexDphi_32, hexDphi_40, hexDphi_41, hexDphi_42, hexDphi_50, hexDphi_51, hexDphi_52, hexDphi_60, hexDphi_61, hexDphi_62, hexDphi_70, hexDphi_71, hexDphi_72, hexSign_00, hexSign_01, hexSign_02, hexSign_10, hexSign_11, hexSign_12, hexSign_20, hexSign_21, hexSign_22, hexSign_30, hexSign_31, hexSign_32, hexSign_40, hexSign_41, hexSign_42, hexSign_50, hexSign_51, hexSign_52, hexSign_60, hexSign_61, hexSign_62, hexSign_70, hexSign_71, hexSign_72]; ring

theorem box_centre (c : Fin 3 → K) (e : Fin 3 → Fin 3 → K) : centre (boxElem c e) = c := by
  funext i
  simp only [centre, Fin.sum_univ_eight, boxElem, hexSign_00, hexSign_01, hexSign_02, hexSign_10, hexSign_11, hexSign_12, hexSign_20, hexSign_21, hexSign_22, hexSign_30, hexSign_31, hexSign_32, hexSign_40, hexSign_41, hexSign_42, hexSign_50, hexSign_51, hexSign_52, hexSign_60, hexSign_61, hexSign_62, hexSign_70, hexSign_71, hexSign_72]
  ring

theorem box_rawNormal (c : Fin 3 → K) (e : Fin 3 → Fin 3 → K) (g : Fin 6) (s t : K) (i : Fin 3) :
    rawNormal (facePos (boxElem c e) g) s t i
      = faceSide g * cross (edge e (faceDir g + 1)) (edge e (faceDir g + 2)) i := by
  match g with
  | 0 =>
    change _ = -1 * cross (edge e 1) (edge e 2) i
    match i with
    | 0 => simp only [rawNormal, cross_zero, tangentXi, tangentEta, dphiXi, dphiEta, Fin.sum_univ_four, facePos, boxElem, edge, xiN_0, etaN_0, xiN_1, etaN_1, xiN_2, etaN_2, xiN_3, etaN_3, faceNode_00, faceNode_01, faceNode_02, faceNode_03, faceNode_10, faceNode_11, faceNode_12, faceNode_13, faceNode_20, faceNode_21, faceNode_22, faceNode_23, faceNode_30, faceNode_31, faceNode_32, faceNode_33, faceNode_40, faceNode_41, faceNode_42, faceNode_43, faceNode_50, faceNode_51, faceNode_52, faceNode_53, hexSign_00, hexSign_01, hexSign_02, hexSign_10, hexSign_11, hexSign_12, hexSign_20, hexSign_21, hexSign_22, hexSign_30, hexSign_31, hexSign_32, hexSign_40, hexSign_41, hexSign_42, hexSign_50, hexSign_51, hexSign_52, hexSign_60, hexSign_61, hexSign_62, hexSign_70, hexSign_71, hexSign_72]; ring
    | 1 => simp only [rawNormal, cross_one, tangentXi, tangentEta, dphiXi, dphiEta, Fin.sum_univ_four, facePos, boxElem, edge, xiN_0, etaN_0, xiN_1, etaN_1, xiN_2, etaN_2, xiN_3, etaN_3, faceNode_00, faceNode_01, faceNode_02, faceNode_03, faceNode_10, faceNode_11, faceNode_12, faceNode_13, faceNode_20, faceNode_21, faceNode_22, faceNode_23, faceNode_30, faceNode_31, faceNode_32, faceNode_33, faceNode_40, faceNode_41, faceNode_42, faceNode_43, faceNode_50, faceNode_51, faceNode_52, faceNode_53, hexSign_00, hexSign_01, hexSign_02, hexSign_10, hexSign_11, hexSign_12, hexSign_20, hexSign_21, hexSign_22, hexSign_30, hexSign_31, hexSign_32, hexSign_40, hexSign_41, hexSign_42, hexSign_50, hexSign_51, hexSign_52, hexSign_60, hexSign_61, hexSign_62, hexSign_70, hexSign_71, hexSign_72]; ring
    | 2 => simp only [rawNormal, cross_two, tangentXi, tangentEta, dphiXi, dphiEta, Fin.sum_univ_four, facePos, boxElem, edge, xiN_0, etaN_0, xiN_1, etaN_1, xiN_2, etaN_2, xiN_3, etaN_3, faceNode_00, faceNode_01, faceNode_02, faceNode_03, faceNode_10, faceNode_11, faceNode_12, faceNode_13, faceNode_20, faceNode_21, faceNode_22, faceNode_23, faceNode_30, faceNode_31, faceNode_32, faceNode_33, faceNode_40, faceNode_41, faceNode_42, faceNode_43, faceNode_50, faceNode_51, faceNode_52, faceNode_53, hexSign_00, hexSign_01, hexSign_02, hexSign_10, hexSign_11, hexSign_12, hexSign_20, hexSign_21, hexSign_22, hexSign_30, hexSign_31, hexSign_32, hexSign_40, hexSign_41, hexSign_42, hexSign_50, hexSign_51, hexSign_52, hexSign_60, hexSign_61, hexSign_62, hexSign_70, hexSign_71, hexSign_72]; ring
  | 1 =>
    change _ = 1 * cross (edge e 1) (edge e 2) i
    match i with
    | 0 => simp only [rawNormal, cross_zero, tangentXi, tangentEta, dphiXi, dphiEta, Fin.sum_univ_four, facePos, boxElem, edge, xiN_0, etaN_0, xiN_1, etaN_1, xiN_2, etaN_2, xiN_3, etaN_3, faceNode_00, faceNode_01, faceNode_02, faceNode_03, faceNode_10, faceNode_11, faceNode_12, faceNode_13, faceNode_20, faceNode_21, faceNode_22, faceNode_23, faceNode_30, faceNode_31, faceNode_32, faceNode_33, faceNode_40, faceNode_41, faceNode_42, faceNode_43, faceNode_50, faceNode_51, faceNode_52, faceNode_53, hexSign_00, hexSign_01, hexSign_02, hexSign_10, hexSign_11, hexSign_12, hexSign_20, hexSign_21, hexSign_22, hexSign_30, hexSign_31, hexSign_32, hexSign_40, hexSign_41, hexSign_42, hexSign_50, hexSign_51, hexSign_52, hexSign_60, hexSign_61, hexSign_62, hexSign_70, hexSign_71, hexSign_72]; ring
    | 1 => simp only [rawNormal, cross_one, tangentXi, tangentEta, dphiXi, dphiEta, Fin.sum_univ_four, facePos, boxElem, edge, xiN_0, etaN_0, xiN_1, etaN_1, xiN_2, etaN_2, xiN_3, etaN_3, faceNode_00, faceNode_01, faceNode_02, faceNode_03, faceNode_10, faceNode_11, faceNode_12, faceNode_13, faceNode_20, faceNode_21, faceNode_22, faceNode_23, faceNode_30, faceNode_31, faceNode_32, faceNode_33, faceNode_40, faceNode_41, faceNode_42, faceNode_43, faceNode_50, faceNode_51, faceNode_52, faceNode_53, hexSign_00, hexSign_01, hexSign_02, hexSign_10, hexSign_11, hexSign_12, hexSign_20, hexSign_21, hexSign_22, hexSign_30, hexSign_31, hexSign_32, hexSign_40, hexSign_41, hexSign_42, hexSign_50, hexSign_51, hexSign_52, hexSign_60, hexSign_61, hexSign_62, hexSign_70, hexSign_71, hexSign_72]; ring
    | 2 => simp only [rawNormal, cross_two, tangentXi, tangentEta, dphiXi, dphiEta, Fin.sum_univ_four, facePos, boxElem, edge, xiN_0, etaN_0, xiN_1, etaN_1, xiN_2, etaN_2, xiN_3, etaN_3, faceNode_00, faceNode_01, faceNode_02, faceNode_03, faceNode_10, faceNode_11, faceNode_12, faceNode_13, faceNode_20, faceNode_21, faceNode_22, faceNode_23, faceNode_30, faceNode_31, faceNode_32, faceNode_33, faceNode_40, faceNode_41, faceNode_42, faceNode_43, faceNode_50, faceNode_51, faceNode_52, faceNode_53, hexSign_00, hexSign_01, hexSign_02, hexSign_10, hexSign_11, hexSign_12, hexSign_20, hexSign_21, hexSign_22, hexSign_30, hexSign_31, hexSign_32, hexSign_40, hexSign_41, hexSign_42, hexSign_50, hexSign_51, hexSign_52, hexSign_60, hexSign_61, hexSign_62, hexSign_70, hexSign_71, hexSign_72]; ring
  | 2 =>
    change _ = -1 * cross (edge e 2) (edge e 0) i
    match i with
    | 0 => simp only [rawNormal, cross_zero, tangentXi, tangentEta, dphiXi, dphiEta, Fin.sum_univ_four, facePos, boxElem, edge, xiN_0, etaN_0, xiN_1, etaN_1, xiN_2, etaN_2, xiN_3, etaN_3, faceNode_00, faceNode_01, faceNode_02, faceNode_03, faceNode_10, faceNode_11, faceNode_12, faceNode_13, faceNode_20, faceNode_21, faceNode_22, faceNode_23, faceNode_30, faceNode_31, faceNode_32, faceNode_33, faceNode_40, faceNode_41, faceNode_42, faceNode_43, faceNode_50, faceNode_51, faceNode_52, faceNode_53, hexSign_00, hexSign_01, hexSign_02, hexSign_10, hexSign_11, hexSign_12, hexSign_20, hexSign_21, hexSign_22, hexSign_30, hexSign_31, hexSign_32, hexSign_40, hexSign_41, hexSign_42, hexSign_50, hexSign_51, hexSign_52, hexSign_60, hexSign_61, hexSign_62, hexSign_70, hexSign_71, hexSign_72]; ring
    | 1 => simp only [rawNormal, cross_one, tangentXi, tangentEta, dphiXi, dphiEta, Fin.sum_univ_four, facePos, boxElem, edge, xiN_0, etaN_0, xiN_1, etaN_1, xiN_2, etaN_2, xiN_3, etaN_3, faceNode_00, faceNode_01, faceNode_02, faceNode_03, faceNode_10, faceNode_11, faceNode_12, faceNode_13, faceNode_20, faceNode_21, faceNode_22, faceNode_23, faceNode_30, faceNode_31, faceNode_32, faceNode_33, faceNode_40, faceNode_41, faceNode_42, faceNode_43, faceNode_50, faceNode_51, faceNode_52, faceNode_53, hexSign_00, hexSign_01, hexSign_02, hexSign_10, hexSign_11, hexSign_12, hexSign_20, hexSign_21, hexSign_22, hexSign_30, hexSign_31, hexSign_32, hexSign_40, hexSign_41, hexSign_42, hexSign_50, hexSign_51, hexSign_52, hexSign_60, hexSign_61, hexSign_62, hexSign_70, hexSign_71, hexSign_72]; ring
    | 2 => simp only [rawNormal, cross_two, tangentXi, tangentEta, dphiXi, dphiEta, Fin.sum_univ_four, facePos, boxElem, edge, xiN_0, etaN_0, xiN_1, etaN_1, xiN_2, etaN_2, xiN_3, etaN_3, faceNode_00, faceNode_01, faceNode_02, faceNode_03, faceNode_10, faceNode_11, faceNode_12, faceNode_13, faceNode_20, faceNode_21, faceNode_22, faceNode_23, faceNode_30, faceNode_31, faceNode_32, faceNode_33, faceNode_40, faceNode_41, faceNode_42, faceNode_43, faceNode_50, faceNode_51, faceNode_52, faceNode_53, hexSign_00, hexSign_01, hexSign_02, hexSign_10, hexSign_11, hexSign_12, hexSign_20, hexSign_21, hexSign_22, hexSign_30, hexSign_31, hexSign_32, hexSign_40, hexSign_41, hexSign_42, hexSign_50, hexSign_51, hexSign_52, hexSign_60, hexSign_61, hexSign_62, hexSign_70, hexSign_71, hexSign_72]; ring
  | 3 =>
    change _ = 1 * cross (edge e 2) (edge e 0) i
    match i with
    | 0 => simp only [rawNormal, cross_zero, tangentXi, tangentEta, dphiXi, dphiEta, Fin.sum_univ_four, facePos, boxElem, edge, xiN_0, etaN_0, xiN_1, etaN_1, xiN_2, etaN_2, xiN_3, etaN_3, faceNode_00, faceNode_01, faceNode_02, faceNode_03, faceNode_10, faceNode_11, faceNode_12, faceNode_13, faceNode_20, faceNode_21, faceNode_22, faceNode_23, faceNode_30, faceNode_31, faceNode_32, faceNode_33, faceNode_40, faceNode_41, faceNode_42, faceNode_43, faceNode_50, faceNode_51, faceNode_52, faceNode_53, hexSign_00, hexSign_01, hexSign_02, hexSign_10, hexSign_11, hexSign_12, hexSign_20, hexSign_21, hexSign_22, hexSign_30, hexSign_31, hexSign_32, hexSign_40, hexSign_41, hexSign_42, hexSign_50, hexSign_51, hexSign_52, hexSign_60, hexSign_61, hexSign_62, hexSign_70, hexSign_71, hexSign_72]; ring
    | 1 => simp only [rawNormal, cross_one, tangentXi, tangentEta, dphiXi, dphiEta, Fin.sum_univ_four, facePos, boxElem, edge, xiN_0, etaN_0, xiN_1, etaN_1, xiN_2, etaN_2, xiN_3, etaN_3, faceNode_00, faceNode_01, faceNode_02, faceNode_03, faceNode_10, faceNode_11, faceNode_12, faceNode_13, faceNode_20, faceNode_21, faceNode_22, faceNode_23, faceNode_30, faceNode_31, faceNode_32, faceNode_33, faceNode_40, faceNode_41, faceNode_42, faceNode_43, faceNode_50, faceNode_51, faceNode_52, faceNode_53, hexSign_00, hexSign_01, hexSign_02, hexSign_10, hexSign_11, hexSign_12, hexSign_20, hexSign_21, hexSign_22, hexSign_30, hexSign_31, hexSign_32, hexSign_40, hexSign_41, hexSign_42, hexSign_50, hexSign_51, hexSign_52, hexSign_60, hexSign_61, hexSign_62, hexSign_70, hexSign_71, hexSign_72]; ring
    | 2 => simp only [rawNormal, cross_two, tangentXi, tangentEta, dphiXi, dphiEta, Fin.sum_univ_four, facePos, boxElem, edge, xiN_0, etaN_0, xiN_1, etaN_1, xiN_2, etaN_2, xiN_3, etaN_3, faceNode_00, faceNode_01, faceNode_02, faceNode_03, faceNode_10, faceNode_11, faceNode_12, faceNode_13, faceNode_20, faceNode_21, faceNode_22, faceNode_23, faceNode_30, faceNode_31, faceNode_32, faceNode_33, faceNode_40, faceNode_41, faceNode_42, faceNode_43, faceNode_50, faceNode_51, faceNode_52, faceNode_53, hexSign_00, hexSign_01, hexSign_02, hexSign_10, hexSign_11, hexSign_12, hexSign_20, hexSign_21, hexSign_22, hexSign_30, hexSign_31, hexSign_32, hexSign_40, hexSign_41, hexSign_42, hexSign_50, hexSign_51, hexSign_52, hexSign_60, hexSign_61, hexSign_62, hexSign_70, hexSign_71, hexSign_72]; ring
  | 4 =>
    change _ = -1 * cross (edge e 0) (edge e 1) i
    match i with
    | 0 => simp only [rawNormal, cross_zero, tangentXi, tangentEta, dphiXi, dphiEta, Fin.sum_univ_four, facePos, boxElem, edge, xiN_0, etaN_0, xiN_1, etaN_1, xiN_2, etaN_2, xiN_3, etaN_3, faceNode_00, faceNode_01, faceNode_02, faceNode_03, faceNode_10, faceNode_11, faceNode_12, faceNode_13, faceNode_20, faceNode_21, faceNode_22, faceNode_23, faceNode_30, faceNode_31, faceNode_32, faceNode_33, faceNode_40, faceNode_41, faceNode_42, faceNode_43, faceNode_50, faceNode_51, faceNode_52, faceNode_53, hexSign_00, hexSign_01, hexSign_02, hexSign_10, hexSign_11, hexSign_12, hexSign_20, hexSign_21, hexSign_22, hexSign_30, hexSign_31, hexSign_32, hexSign_40, hexSign_41, hexSign_42, hexSign_50, hexSign_51, hexSign_52, hexSign_60, hexSign_61, hexSign_62, hexSign_70, hexSign_71, hexSign_72]; ring
    | 1 => simp only [rawNormal, cross_one, tangentXi, tangentEta, dphiXi, dphiEta, Fin.sum_univ_four, facePos, boxElem, edge, xiN_0, etaN_0, xiN_1, etaN_1, xiN_2, etaN_2, xiN_3, etaN_3, faceNode_00, faceNode_01, faceNode_02, faceNode_03, faceNode_10, faceNode_11, faceNode_12, faceNode_13, faceNode_20, faceNode_21, faceNode_22, faceNode_23, faceNode_30, faceNode_31, faceNode_32, faceNode_33, faceNode_40, faceNode_41, faceNode_42, faceNode_43, faceNode_50, faceNode_51, faceNode_52, faceNode_53, hexSign_00, hexSign_01, hexSign_02, hexSign_10, hexSign_11, hexSign_12, hexSign_20, hexSign_21, hexSign_22, hexSign_30, hexSign_31, hexSign_32, hexSign_40, hexSign_41, hexSign_42, hexSign_50, hexSign_51, hexSign_52, hexSign_60, hexSign_61, hexSign_62, hexSign_70, hexSign_71, hexSign_72]; ring
    | 2 => simp only [rawNormal, cross_two, tangentXi, tangentEta, dphiXi, dphiEta, Fin.sum_univ_four, facePos, boxElem, edge, xiN_0, etaN_0, xiN_1, etaN_1, xiN_2, etaN_2, xiN_3, etaN_3, faceNode_00, faceNode_01, faceNode_02, faceNode_03, faceNode_10, faceNode_11, faceNode_12, faceNode_13, faceNode_20, faceNode_21, faceNode_22, faceNode_23, faceNode_30, faceNode_31, faceNode_32, faceNode_33, faceNode_40, faceNode_41, faceNode_42, faceNode_43, faceNode_50, faceNode_51, faceNode_52, faceNode_53, hexSign_00, hexSign_01, hexSign_02, hexSign_10, hexSign_11, hexSign_12, hexSign_20, hexSign_21, hexSign_22, hexSign_30, hexSign_31, hexSign_32, hexSign_40, hexSign_41, hexSign_42, hexSign_50, hexSign_51, hexSign_52, hexSign_60, hexSign_61, hexSign_62, hexSign_70, hexSign_71, hexSign_72]; ring
  | 5 =>
    change _ = 1 * cross (edge e 0) (edge e 1) i
    match i with
    | 0 => simp only [rawNormal, cross_zero, tangentXi, tangentEta, dphiXi, dphiEta, Fin.sum_univ_four, facePos, boxElem, edge, xiN_0, etaN_0, xiN_1, etaN_1, xiN_2, etaN_2, xiN_3, etaN_3, faceNode_00, faceNode_01, faceNode_02, faceNode_03, faceNode_10, faceNode_11, faceNode_12, faceNode_13, faceNode_20, faceNode_21, faceNode_22, faceNode_23, faceNode_30, faceNode_31, faceNode_32, faceNode_33, faceNode_40, faceNode_41, faceNode_42, faceNode_43, faceNode_50, faceNode_51, faceNode_52, faceNode_53, hexSign_00, hexSign_01, hexSign_02, hexSign_10, hexSign_11, hexSign_12, hexSign_20, hexSign_21, hexSign_22, hexSign_30, hexSign_31, hexSign_32, hexSign_40, hexSign_41, hexSign_42, hexSign_50, hexSign_51, hexSign_52, hexSign_60, hexSign_61, hexSign_62, hexSign_70, hexSign_71, hexSign_72]; ring
    | 1 => simp only [rawNormal, cross_one, tangentXi, tangentEta, dphiXi, dphiEta, Fin.sum_univ_four, facePos, boxElem, edge, xiN_0, etaN_0, xiN_1, etaN_1, xiN_2, etaN_2, xiN_3, etaN_3, faceNode_00, faceNode_01, faceNode_02, faceNode_03, faceNode_10, faceNode_11, faceNode_12, faceNode_13, faceNode_20, faceNode_21, faceNode_22, faceNode_23, faceNode_30, faceNode_31, faceNode_32, faceNode_33, faceNode_40, faceNode_41, faceNode_42, faceNode_43, faceNode_50, faceNode_51, faceNode_52, faceNode_53, hexSign_00, hexSign_01, hexSign_02, hexSign_10, hexSign_11, hexSign_12, hexSign_20, hexSign_21, hexSign_22, hexSign_30, hexSign_31, hexSign_32, hexSign_40, hexSign_41, hexSign_42, hexSign_50, hexSign_51, hexSign_52, hexSign_60, hexSign_61, hexSign_62, hexSign_70, hexSign_71, hexSign_72]; ring
    | 2 => simp only [rawNormal, cross_two, tangentXi, tangentEta, dphiXi, dphiEta, Fin.sum_univ_four, facePos, boxElem, edge, xiN_0, etaN_0, xiN_1, etaN_1, xiN_2, etaN_2, xiN_3, etaN_3, faceNode_00, faceNode_01, faceNode_02, faceNode_03, faceNode_10, faceNode_11, faceNode_12, faceNode_13, faceNode_20, faceNode_21, faceNode_22, faceNode_23, faceNode_30, faceNode_31, faceNode_32, faceNode_33, faceNode_40, faceNode_41, faceNode_42, faceNode_43, faceNode_50, faceNode_51, faceNode_52, faceNode_53, hexSign_00, hexSign_01, hexSign_02, hexSign_10, hexSign_11, hexSign_12, hexSign_20, hexSign_21, hexSign_22, hexSign_30, hexSign_31, hexSign_32, hexSign_40, hexSign_41, hexSign_42, hexSign_50, hexSign_51, hexSign_52, hexSign_60, hexSign_61, hexSign_62, hexSign_70, hexSign_71, hexSign_72]; ring

end box

theorem refToPhysical_centre (E : Fin 3 → Fin 8 → ℝ) (f : Fin 6) (i : Fin 3) :
    refToPhysical (facePos E f) 0 0 i = faceCentre E f i := by
  simp only [refToPhysical, Fin.sum_univ_four, phi, facePos, faceCentre, mul_zero, add_zero]
  ring

theorem len_smul (a : ℝ) (v : Fin 3 → ℝ) : len (fun i => a * v i) = |a| * len v := by
  unfold len
  rw [← Real.sqrt_sq_eq_abs, ← Real.sqrt_mul (sq_nonneg a)]
  congr 1; ring

theorem faceSide_sq (g : Fin 6) : (faceSide g : ℝ) * faceSide g = 1 := by
  match g with
  | 0 => change (-1 : ℝ) * -1 = 1; norm_num
  | 1 => change (1 : ℝ) * 1 = 1; norm_num
  | 2 => change (-1 : ℝ) * -1 = 1; norm_num
  | 3 => change (1 : ℝ) * 1 = 1; norm_num
  | 4 => change (-1 : ℝ) * -1 = 1; norm_num
  | 5 => change (1 : ℝ) * 1 = 1; norm_num

theorem abs_faceSide (g : Fin 6) : |(faceSide g : ℝ)| = 1 := by
  have h := faceSide_sq g
  rw [← abs_mul_abs_self] at h
  have h2 := abs_nonneg (faceSide g : ℝ)
  nlinarith

theorem edge_det (e : Fin 3 → Fin 3 → ℝ) (d : Fin 3) :
    dot (edge e d) (cross (edge e (d + 1)) (edge e (d + 2))) = det e := by
  match d with
  | 0 => change dot (edge e 0) (cross (edge e 1) (edge e 2)) = _
         simp only [dot, cross_zero, cross_one, cross_two, edge, det]; ring
  | 1 => change dot (edge e 1) (cross (edge e 2) (edge e 0)) = _
         simp only [dot, cross_zero, cross_one, cross_two, edge, det]; ring
  | 2 => change dot (edge e 2) (cross (edge e 0) (edge e 1)) = _
         simp only [dot, cross_zero, cross_one, cross_two, edge, det]; ring

theorem box_faceCentre (c : Fin 3 → ℝ) (e : Fin 3 → Fin 3 → ℝ) (g : Fin 6) (i : Fin 3) :
    faceCentre (boxElem c e) g i = c i + faceSide g * e i (faceDir g) := by
  match g with
  | 0 => change _ = c i + -1 * e i 0
         simp only [faceCentre, boxElem, faceNode_00, faceNode_01, faceNode_02, faceNode_03, faceNode_10, faceNode_11, faceNode_12, faceNode_13, faceNode_20, faceNode_21, faceNode_22, faceNode_23, faceNode_30, faceNode_31, faceNode_32, faceNode_33, faceNode_40, faceNode_41, faceNode_42, faceNode_43, faceNode_50, faceNode_51, faceNode_52, faceNode_53, hexSign_00, hexSign_01, hexSign_02, hexSign_10, hexSign_11, hexSign_12, hexSign_20, hexSign_21, hexSign_22, hexSign_30, hexSign_31, hexSign_32, hexSign_40, hexSign_41, hexSign_42, hexSign_50, hexSign_51, hexSign_52, hexSign_60, hexSign_61, hexSign_62, hexSign_70, hexSign_71, hexSign_72]; ring
  | 1 => change _ = c i + 1 * e i 0
         simp only [faceCentre, boxElem, faceNode_00, faceNode_01, faceNode_02, faceNode_03, faceNode_10, faceNode_11, faceNode_12, faceNode_13, faceNode_20, faceNode_21, faceNode_22, faceNode_23, faceNode_30, faceNode_31, faceNode_32, faceNode_33, faceNode_40, faceNode_41, faceNode_42, faceNode_43, faceNode_50, faceNode_51, faceNode_52, faceNode_53, hexSign_00, hexSign_01, hexSign_02, hexSign_10, hexSign_11, hexSign_12, hexSign_20, hexSign_21, hexSign_22, hexSign_30, hexSign_31, hexSign_32, hexSign_40, hexSign_41, hexSign_42, hexSign_50, hexSign_51, hexSign_52, hexSign_60, hexSign_61, hexSign_62, hexSign_70, hexSign_71, hexSign_72]; ring
  | 2 => change _ = c i + -1 * e i 1
         simp only [faceCentre, boxElem, faceNode_00, faceNode_01, faceNode_02, faceNode_03, faceNode_10, faceNode_11, faceNode_12, faceNode_13, faceNode_20, faceNode_21, faceNode_22, faceNode_23, faceNode_30, faceNode_31, faceNode_32, faceNode_33, faceNode_40, faceNode_41, faceNode_42, faceNode_43, faceNode_50, faceNode_51, faceNode_52, faceNode_53, hexSign_00, hexSign_01, hexSign_02, hexSign_10, hexSign_11, hexSign_12, hexSign_20, hexSign_21, hexSign_22, hexSign_30, hexSign_31, hexSign_32, hexSign_40, hexSign_41, hexSign_42, hexSign_50, hexSign_51, hexSign_52, hexSign_60, hexSign_61, hexSign_62, hexSign_70, hexSign_71, hexSign_72]; ring
  | 3 => change _ = c i + 1 * e i 1
         simp only [faceCentre, boxElem, faceNode_00, faceNode_01, faceNode_02, faceNode_03, faceNode_10, faceNode_11, faceNode_12, faceNode_13, faceNode_20, faceNode_21, faceNode_22, faceNode_23, faceNode_30, faceNode_31, faceNode_32, faceNode_33, faceNode_40, faceNode_41, faceNode_42, faceNode_43, faceNode_50, faceNode_51, faceNode_52, faceNode_53, hexSign_00, hexSign_01, hexSign_02, hexSign_10, hexSign_11, hexSign_12, hexSign_20, hexSign_21, hexSign_22, hexSign_30, hexSign_31, hexSign_32, hexSign_40, hexSign_41, hexSign_42, hexSign_50, hexSign_51, hexSign_52, hexSign_60, hexSign_61, hexSign_62, hexSign_70, hexSign_71, hexSign_72]; ring
  | 4 => change _ = c i + -1 * e i 2
         simp only [faceCentre, boxElem, faceNode_00, faceNode_01, faceNode_02, faceNode_03, faceNode_10, faceNode_11, faceNode_12, faceNode_13, faceNode_20, faceNode_21, faceNode_22, faceNode_23, faceNode_30, faceNode_31, faceNode_32, faceNode_33, faceNode_40, faceNode_41, faceNode_42, faceNode_43, faceNode_50, faceNode_51, faceNode_52, faceNode_53, hexSign_00, hexSign_01, hexSign_02, hexSign_10, hexSign_11, hexSign_12, hexSign_20, hexSign_21, hexSign_22, hexSign_30, hexSign_31, hexSign_32, hexSign_40, hexSign_41, hexSign_42, hexSign_50, hexSign_51, hexSign_52, hexSign_60, hexSign_61, hexSign_62, hexSign_70, hexSign_71, hexSign_72]; ring
  | 5 => change _ = c i + 1 * e i 2
         simp only [faceCentre, boxElem, faceNode_00, faceNode_01, faceNode_02, faceNode_03, faceNode_10, faceNode_11, faceNode_12, faceNode_13, faceNode_20, faceNode_21, faceNode_22, faceNode_23, faceNode_30, faceNode_31, faceNode_32, faceNode_33, faceNode_40, faceNode_41, faceNode_42, faceNode_43, faceNode_50, faceNode_51, faceNode_52, faceNode_53, hexSign_00, hexSign_01, hexSign_02, hexSign_10, hexSign_11, hexSign_12, hexSign_20, hexSign_21, hexSign_22, hexSign_30, hexSign_31, hexSign_32, hexSign_40, hexSign_41, hexSign_42, hexSign_50, hexSign_51, hexSign_52, hexSign_60, hexSign_61, hexSign_62, hexSign_70, hexSign_71, hexSign_72]; ring

theorem box_dot (c : Fin 3 → ℝ) (e : Fin 3 → Fin 3 → ℝ) (g : Fin 6) (p : Fin 3 → ℝ) :
    dot (fun i => c i + (p 0 * e i 0 + p 1 * e i 1 + p 2 * e i 2) - faceCentre (boxElem c e) g i)
      (cross (edge e (faceDir g + 1)) (edge e (faceDir g + 2)))
      = (p (faceDir g) - faceSide g) * det e := by
  simp only [box_faceCentre]
  match g with
  | 0 =>
    change dot (fun i => c i + (p 0 * e i 0 + p 1 * e i 1 + p 2 * e i 2) - (c i + -1 * e i 0)) (cross (edge e 1) (edge e 2)) = (p 0 - -1) * det e
    simp only [dot, cross_zero, cross_one, cross_two, edge, det]; ring
  | 1 =>
    change dot (fun i => c i + (p 0 * e i 0 + p 1 * e i 1 + p 2 * e i 2) - (c i + 1 * e i 0)) (cross (edge e 1) (edge e 2)) = (p 0 - 1) * det e
    simp only [dot, cross_zero, cross_one, cross_two, edge, det]; ring
  | 2 =>
    change dot (fun i => c i + (p 0 * e i 0 + p 1 * e i 1 + p 2 * e i 2) - (c i + -1 * e i 1)) (cross (edge e 2) (edge e 0)) = (p 1 - -1) * det e
    simp only [dot, cross_zero, cross_one, cross_two, edge, det]; ring
  | 3 =>
    change dot (fun i => c i + (p 0 * e i 0 + p 1 * e i 1 + p 2 * e i 2) - (c i + 1 * e i 1)) (cross (edge e 2) (edge e 0)) = (p 1 - 1) * det e
    simp only [dot, cross_zero, cross_one, cross_two, edge, det]; ring
  | 4 =>
    change dot (fun i => c i + (p 0 * e i 0 + p 1 * e i 1 + p 2 * e i 2) - (c i + -1 * e i 2)) (cross (edge e 0) (edge e 1)) = (p 2 - -1) * det e
    simp only [dot, cross_zero, cross_one, cross_two, edge, det]; ring
  | 5 =>
    change dot (fun i => c i + (p 0 * e i 0 + p 1 * e i 1 + p 2 * e i 2) - (c i + 1 * e i 2)) (cross (edge e 0) (edge e 1)) = (p 2 - 1) * det e
    simp only [dot, cross_zero, cross_one, cross_two, edge, det]; ring

theorem edge_cross_ne (e : Fin 3 → Fin 3 → ℝ) (h : det e ≠ 0) (d : Fin 3) :
    len (cross (edge e (d + 1)) (edge e (d + 2))) ≠ 0 := by
  intro h0
  rw [len_eq_zero] at h0
  apply h
  rw [← edge_det e d, h0]
  simp [dot]

theorem box_unitNormal (c : Fin 3 → ℝ) (e : Fin 3 → Fin 3 → ℝ) (h : det e ≠ 0) (g : Fin 6) (s t : ℝ) :
    unitNormal (facePos (boxElem c e) g) s t
      = some fun i => faceSide g * cross (edge e (faceDir g + 1)) (edge e (faceDir g + 2)) i
          / len (cross (edge e (faceDir g + 1)) (edge e (faceDir g + 2))) := by
  have hr : rawNormal (facePos (boxElem c e) g) s t
      = fun i => faceSide g * cross (edge e (faceDir g + 1)) (edge e (faceDir g + 2)) i := by
    funext i; exact box_rawNormal c e g s t i
  have hl : len (rawNormal (facePos (boxElem c e) g) s t)
      = len (cross (edge e (faceDir g + 1)) (edge e (faceDir g + 2))) := by
    rw [hr, len_smul, abs_faceSide, one_mul]
  simp only [unitNormal]
  rw [if_neg (by rw [hl]; exact edge_cross_ne e h _)]
  rw [hl, hr]

end Contact

/-! ### C78 -/

/-- C78: a node counts as penetrating the column in front of face `f` exactly when it lies less
than 0.01 in front of the plane of every face but the opposite one, the plane of a face being the
one through the mean of its nodes perpendicular to the normal there (a face without normal is never
passed). -/
theorem C78_penetrates_iff (E : Fin 3 → Fin 8 → ℝ) (f : Fin 6) (x : Fin 3 → ℝ) :
    penetrates E f x = true ↔
      ∀ g, g ≠ oppositeFace f → ∃ n, unitNormal (facePos E g) 0 0 = some n ∧
        dot (fun i => x i - faceCentre E g i) n < 1 / 100 := by
  have hb : ∀ g, behindFace (facePos E g) x = true ↔ ∃ n, unitNormal (facePos E g) 0 0 = some n ∧
      dot (fun i => x i - faceCentre E g i) n < 1 / 100 := by
    intro g
    have hc : (fun i => x i - refToPhysical (facePos E g) 0 0 i) = fun i => x i - faceCentre E g i := by
      funext i; rw [refToPhysical_centre]
    unfold behindFace signedDist
    rw [hc]
    cases unitNormal (facePos E g) 0 0 with
    | none => simp
    | some n => simp
  unfold penetrates
  rw [decide_eq_true_iff]
  have hlen : (List.finRange 5).length = 5 := List.length_finRange
  have key : ((List.finRange 5).filter
      fun i => behindFace (facePos E (columnFaces f i)) x).length = 5 ↔
      ∀ i : Fin 5, behindFace (facePos E (columnFaces f i)) x = true := by
    constructor
    · intro h i
      have : ((List.finRange 5).filter fun i => behindFace (facePos E (columnFaces f i)) x).length
          = (List.finRange 5).length := by rw [h, hlen]
      have h2 := List.length_filter_eq_length_iff.mp this
      exact h2 i (List.mem_finRange i)
    · intro h
      rw [List.length_filter_eq_length_iff.mpr (fun i _ => h i), hlen]
  rw [key]
  obtain ⟨_, _, hcol⟩ := C77_column f
  constructor
  · intro h g hg
    obtain ⟨i, hi⟩ := (hcol g).mpr hg
    rw [← hb, ← hi]; exact h i
  · intro h i
    rw [hb]
    exact h _ ((hcol _).mp ⟨i, rfl⟩)

/-- C78: no point inside a convex element is missed: when all nodes lie behind the planes of the
five faces, every point of the element is reported as penetrating. -/
theorem C78_inside_found (E : Fin 3 → Fin 8 → ℝ) (f : Fin 6)
    (hconv : ∀ g, g ≠ oppositeFace f → ∃ n, unitNormal (facePos E g) 0 0 = some n ∧
      ∀ k, dot (fun i => E i k - faceCentre E g i) n ≤ 0)
    (p : Fin 3 → ℝ) (hp : ∀ d, |p d| ≤ 1) : penetrates E f (hexPos E p) = true := by
  rw [C78_penetrates_iff]
  intro g hg
  obtain ⟨n, hn, hk⟩ := hconv g hg
  refine ⟨n, hn, ?_⟩
  obtain ⟨a1, a2⟩ := abs_le.mp (hp 0)
  obtain ⟨b1, b2⟩ := abs_le.mp (hp 1)
  obtain ⟨c1, c2⟩ := abs_le.mp (hp 2)
  have n1 : 0 ≤ 1 - p 0 := by linarith
  have n2 : 0 ≤ 1 + p 0 := by linarith
  have n3 : 0 ≤ 1 - p 1 := by linarith
  have n4 : 0 ≤ 1 + p 1 := by linarith
  have n5 : 0 ≤ 1 - p 2 := by linarith
  have n6 : 0 ≤ 1 + p 2 := by linarith
  have hnon : ∀ k, 0 ≤ hexPhi p k := by
    intro k
    match k with
    | 0 => rw [hexPhi_0]; positivity
    | 1 => rw [hexPhi_1]; positivity
    | 2 => rw [hexPhi_2]; positivity
    | 3 => rw [hexPhi_3]; positivity
    | 4 => rw [hexPhi_4]; positivity
    | 5 => rw [hexPhi_5]; positivity
    | 6 => rw [hexPhi_6]; positivity
    | 7 => rw [hexPhi_7]; positivity
  have hsum : ∑ k, hexPhi p k = 1 := by
    simp only [Fin.sum_univ_eight, hexPhi_0, hexPhi_1, hexPhi_2, hexPhi_3, hexPhi_4, hexPhi_5, hexPhi_6, hexPhi_7]; ring
  have hdot : dot (fun i => hexPos E p i - faceCentre E g i) n
      = ∑ k, hexPhi p k * dot (fun i => E i k - faceCentre E g i) n := by
    have e : ∀ i, hexPos E p i - faceCentre E g i
        = ∑ k, hexPhi p k * (E i k - faceCentre E g i) := by
      intro i
      simp only [mul_sub, Finset.sum_sub_distrib]
      rw [← Finset.sum_mul, hsum, one_mul]
      simp only [hexPos]
      congr 1
      exact Finset.sum_congr rfl fun k _ => mul_comm _ _
    simp only [dot]
    rw [e 0, e 1, e 2, Finset.sum_mul, Finset.sum_mul, Finset.sum_mul, ← Finset.sum_add_distrib,
      ← Finset.sum_add_distrib]
    exact Finset.sum_congr rfl fun k _ => by ring
  rw [hdot]
  have : ∑ k, hexPhi p k * dot (fun i => E i k - faceCentre E g i) n ≤ 0 :=
    Finset.sum_nonpos fun k _ => mul_nonpos_of_nonneg_of_nonpos (hnon k) (hk k)
  linarith

/-- C78: on a parallelepiped that is not inverted the node with local coordinates `p` counts as
penetrating exactly when it lies less than 0.01 outside of each of the five face planes. -/
theorem C78_parallelepiped (c : Fin 3 → ℝ) (e : Fin 3 → Fin 3 → ℝ) (h : 0 < det e) (f : Fin 6)
    (p : Fin 3 → ℝ) :
    penetrates (boxElem c e) f (hexPos (boxElem c e) p) = true ↔
      ∀ g, g ≠ oppositeFace f →
        (faceSide g * p (faceDir g) - 1) * halfHeight e (faceDir g) < 1 / 100 := by
  rw [C78_penetrates_iff]
  refine forall_congr' fun g => imp_congr_right fun _ => ?_
  have hL := edge_cross_ne e h.ne' (faceDir g)
  have hd := box_dot c e g p
  have hn := box_unitNormal c e h.ne' g 0 0
  have hs := faceSide_sq g
  have key : dot (fun i => hexPos (boxElem c e) p i - faceCentre (boxElem c e) g i)
      (fun i => faceSide g * cross (edge e (faceDir g + 1)) (edge e (faceDir g + 2)) i
          / len (cross (edge e (faceDir g + 1)) (edge e (faceDir g + 2))))
      = (faceSide g * p (faceDir g) - 1) * halfHeight e (faceDir g) := by
    simp only [box_pos]
    unfold halfHeight
    obtain ⟨l, hl⟩ : ∃ l, l = len (cross (edge e (faceDir g + 1)) (edge e (faceDir g + 2))) := ⟨_, rfl⟩
    obtain ⟨v, hv⟩ : ∃ v, v = cross (edge e (faceDir g + 1)) (edge e (faceDir g + 2)) := ⟨_, rfl⟩
    rw [← hl] at hL ⊢
    rw [← hv] at hd ⊢
    have : dot (fun i => c i + (p 0 * e i 0 + p 1 * e i 1 + p 2 * e i 2)
          - faceCentre (boxElem c e) g i) (fun i => faceSide g * v i / l)
        = faceSide g * dot (fun i => c i + (p 0 * e i 0 + p 1 * e i 1 + p 2 * e i 2)
          - faceCentre (boxElem c e) g i) v / l := by
      unfold dot; ring
    rw [this, hd]
    linear_combination (-(det e) / l) * hs
  rw [hn]
  constructor
  · rintro ⟨n, hn', hlt⟩
    simp only [Option.some.injEq] at hn'
    rw [← hn', key] at hlt
    exact hlt
  · intro hlt
    exact ⟨_, rfl, by rw [key]; exact hlt⟩

/-- C78: every point of a parallelepiped that is not inverted is found. -/
theorem C78_parallelepiped_inside (c : Fin 3 → ℝ) (e : Fin 3 → Fin 3 → ℝ) (h : 0 < det e) (f : Fin 6)
    (p : Fin 3 → ℝ) (hp : ∀ d, |p d| ≤ 1) :
    penetrates (boxElem c e) f (hexPos (boxElem c e) p) = true := by
  rw [C78_parallelepiped c e h]
  intro g _
  have h1 : faceSide g * p (faceDir g) ≤ 1 := by
    calc faceSide g * p (faceDir g) ≤ |faceSide g * p (faceDir g)| := le_abs_self _
      _ = |p (faceDir g)| := by rw [abs_mul, abs_faceSide, one_mul]
      _ ≤ 1 := hp _
  have h2 : 0 ≤ halfHeight e (faceDir g) := div_nonneg h.le (len_nonneg _)
  have := mul_nonpos_of_nonpos_of_nonneg (sub_nonpos.mpr h1) h2
  linarith

/-- The cube with centre 0 and half-edge `r`. -/
noncomputable def cubeEdges (r : ℝ) : Fin 3 → Fin 3 → ℝ := fun i d => if i = d then r else 0

namespace Contact
theorem cube_det (r : ℝ) : det (cubeEdges r) = r ^ 3 := by
  simp [det, cubeEdges]; ring

theorem cube_cross (r : ℝ) (d : Fin 3) :
    len (cross (edge (cubeEdges r) (d + 1)) (edge (cubeEdges r) (d + 2))) = r ^ 2 := by
  have h : len (cross (edge (cubeEdges r) (d + 1)) (edge (cubeEdges r) (d + 2))) = √((r ^ 2) ^ 2) := by
    match d with
    | 0 => change len (cross (edge (cubeEdges r) 1) (edge (cubeEdges r) 2)) = _
           unfold len; congr 1
           simp [cross_zero, cross_one, cross_two, edge, cubeEdges]; ring
    | 1 => change len (cross (edge (cubeEdges r) 2) (edge (cubeEdges r) 0)) = _
           unfold len; congr 1
           simp [cross_zero, cross_one, cross_two, edge, cubeEdges]; ring
    | 2 => change len (cross (edge (cubeEdges r) 0) (edge (cubeEdges r) 1)) = _
           unfold len; congr 1
           simp [cross_zero, cross_one, cross_two, edge, cubeEdges]; ring
  rw [h, Real.sqrt_sq (by positivity)]

theorem cube_height (r : ℝ) (hr : 0 < r) (d : Fin 3) : halfHeight (cubeEdges r) d = r := by
  unfold halfHeight
  rw [cube_det, cube_cross]
  field_simp
end Contact

/-- C78, what the code does instead: the tolerance 0.01 is a length, not a fraction of the element:
for every `m` there is a cube and a node at `m` times the half-edge from its centre, in front of its
top face, which is reported as penetrating. -/
theorem C78_relative_tolerance_fails (m : ℝ) : ∃ r : ℝ, 0 < r ∧
    penetrates (boxElem (fun _ => 0) (cubeEdges r)) 5
      (hexPos (boxElem (fun _ => 0) (cubeEdges r)) ![0, 0, m]) = true := by
  refine ⟨1 / (200 * (|m| + 1)), by positivity, ?_⟩
  have hr : (0 : ℝ) < 1 / (200 * (|m| + 1)) := by positivity
  rw [C78_parallelepiped _ _ (by rw [cube_det]; positivity)]
  intro g _
  rw [cube_height _ hr]
  have hb : faceSide g * (![0, 0, m] : Fin 3 → ℝ) (faceDir g) ≤ |m| := by
    calc faceSide g * (![0, 0, m] : Fin 3 → ℝ) (faceDir g)
        ≤ |faceSide g * (![0, 0, m] : Fin 3 → ℝ) (faceDir g)| := le_abs_self _
      _ = |(![0, 0, m] : Fin 3 → ℝ) (faceDir g)| := by rw [abs_mul, abs_faceSide, one_mul]
      _ ≤ |m| := by
        have : ∀ d, |(![0, 0, m] : Fin 3 → ℝ) d| ≤ |m| := by
          intro d
          match d with
          | 0 => change |(0 : ℝ)| ≤ |m|; rw [abs_zero]; exact abs_nonneg m
          | 1 => change |(0 : ℝ)| ≤ |m|; rw [abs_zero]; exact abs_nonneg m
          | 2 => exact le_refl _
        exact this _
  have h1 : (faceSide g * (![0, 0, m] : Fin 3 → ℝ) (faceDir g) - 1) * (1 / (200 * (|m| + 1)))
      ≤ (|m| + 1) * (1 / (200 * (|m| + 1))) := by
    apply mul_le_mul_of_nonneg_right _ hr.le
    linarith
  have h2 : (|m| + 1) * (1 / (200 * (|m| + 1))) = 1 / 200 := by
    have : |m| + 1 ≠ 0 := by positivity
    field_simp
  rw [h2] at h1
  calc _ ≤ (1 : ℝ) / 200 := h1
    _ < 1 / 100 := by norm_num

/-- C78: a cube with half-edge 1 is not inverted and 1.009 is within the tolerance, 1.02 is not. -/
example : 0 < det (cubeEdges 1) ∧ (1.009 - 1) * halfHeight (cubeEdges 1) 2 < 1 / 100 ∧
    ¬ (1.02 - 1) * halfHeight (cubeEdges 1) 2 < 1 / 100 := by
  rw [cube_det, cube_height 1 one_pos]; norm_num

/-! ### C79 -/

section inverse
variable {K : Type} [Field K]

namespace Contact
theorem inv_mul (J : Fin 3 → Fin 3 → K) (h : det J ≠ 0) (v : Fin 3 → K) (j : Fin 3) :
    ∑ k, inv J j k * (∑ d, J k d * v d) = v j := by
  have hd : det J = J 0 0 * (J 1 1 * J 2 2 - J 1 2 * J 2 1) - J 0 1 * (J 1 0 * J 2 2 - J 1 2 * J 2 0)
    + J 0 2 * (J 1 0 * J 2 1 - J 1 1 * J 2 0) := rfl
  obtain ⟨D, hD⟩ : ∃ D, D = det J := ⟨_, rfl⟩
  have e : ∀ j k, inv J j k = (match j, k with
    | 0, 0 => (J 1 1 * J 2 2 - J 1 2 * J 2 1) / D
    | 0, 1 => (J 0 2 * J 2 1 - J 0 1 * J 2 2) / D
    | 0, 2 => (J 0 1 * J 1 2 - J 0 2 * J 1 1) / D
    | 1, 0 => (J 1 2 * J 2 0 - J 1 0 * J 2 2) / D
    | 1, 1 => (J 0 0 * J 2 2 - J 0 2 * J 2 0) / D
    | 1, 2 => (J 0 2 * J 1 0 - J 0 0 * J 1 2) / D
    | 2, 0 => (J 1 0 * J 2 1 - J 1 1 * J 2 0) / D
    | 2, 1 => (J 0 1 * J 2 0 - J 0 0 * J 2 1) / D
    | 2, 2 => (J 0 0 * J 1 1 - J 0 1 * J 1 0) / D) := by
    intro j k
    rw [hD]
    match j, k with
    | 0, 0 => rfl
    | 0, 1 => rfl
    | 0, 2 => rfl
    | 1, 0 => rfl
    | 1, 1 => rfl
    | 1, 2 => rfl
    | 2, 0 => rfl
    | 2, 1 => rfl
    | 2, 2 => rfl
  rw [← hD] at h hd
  simp only [Fin.sum_univ_three]
  match j with
  | 0 => simp only [e]; field_simp; rw [hd]; ring
  | 1 => simp only [e]; field_simp; rw [hd]; ring
  | 2 => simp only [e]; field_simp; rw [hd]; ring
end Contact

/-- C79: a solution is kept: when the current local coordinates already describe the wanted
position, the update leaves them unchanged, on every element with a regular Jacobian there. -/
theorem C79_solution_kept [DecidableEq K] (E : Fin 3 → Fin 8 → K) (p : Fin 3 → K)
    (h : det (hexJac E p) ≠ 0) : newton E (hexPos E p) p (hexPos E p) = some p := by
  simp only [newton]
  rw [if_neg h]
  simp

/-- C79: one update solves the linearised problem: the Jacobian times the change of the local
coordinates is the distance still to go. -/
theorem C79_update_linearised [DecidableEq K] (E : Fin 3 → Fin 8 → K) (pos p x q : Fin 3 → K)
    (h : newton E pos p x = some q) (i : Fin 3) :
    ∑ d, hexJac E p i d * (q d - p d) = pos i - x i := by
  simp only [newton] at h
  split_ifs at h with h0
  simp only [Option.some.injEq] at h
  subst h
  have hd : det (hexJac E p) ≠ 0 := h0
  obtain ⟨J, hJ⟩ : ∃ J, J = hexJac E p := ⟨_, rfl⟩
  rw [← hJ] at hd ⊢
  simp only [add_sub_cancel_left]
  obtain ⟨w, hw⟩ : ∃ w : Fin 3 → K, w = fun k => pos k - x k := ⟨_, rfl⟩
  have hw' : ∀ k, pos k - x k = w k := fun k => by rw [hw]
  simp only [hw']
  have hdd : det J = J 0 0 * (J 1 1 * J 2 2 - J 1 2 * J 2 1) - J 0 1 * (J 1 0 * J 2 2 - J 1 2 * J 2 0)
    + J 0 2 * (J 1 0 * J 2 1 - J 1 1 * J 2 0) := rfl
  obtain ⟨D, hD⟩ : ∃ D, D = det J := ⟨_, rfl⟩
  have e00 : inv J 0 0 = (J 1 1 * J 2 2 - J 1 2 * J 2 1) / D := by rw [hD]; rfl
  have e01 : inv J 0 1 = (J 0 2 * J 2 1 - J 0 1 * J 2 2) / D := by rw [hD]; rfl
  have e02 : inv J 0 2 = (J 0 1 * J 1 2 - J 0 2 * J 1 1) / D := by rw [hD]; rfl
  have e10 : inv J 1 0 = (J 1 2 * J 2 0 - J 1 0 * J 2 2) / D := by rw [hD]; rfl
  have e11 : inv J 1 1 = (J 0 0 * J 2 2 - J 0 2 * J 2 0) / D := by rw [hD]; rfl
  have e12 : inv J 1 2 = (J 0 2 * J 1 0 - J 0 0 * J 1 2) / D := by rw [hD]; rfl
  have e20 : inv J 2 0 = (J 1 0 * J 2 1 - J 1 1 * J 2 0) / D := by rw [hD]; rfl
  have e21 : inv J 2 1 = (J 0 1 * J 2 0 - J 0 0 * J 2 1) / D := by rw [hD]; rfl
  have e22 : inv J 2 2 = (J 0 0 * J 1 1 - J 0 1 * J 1 0) / D := by rw [hD]; rfl
  rw [← hD] at hd hdd
  simp only [Fin.sum_univ_three, e00, e01, e02, e10, e11, e12, e20, e21, e22]
  match i with
  | 0 => field_simp; rw [hdd]; ring
  | 1 => field_simp; rw [hdd]; ring
  | 2 => field_simp; rw [hdd]; ring

end inverse

/-- C79: whenever the search ends before its iterations run out, the local coordinates it returns
describe the wanted position up to `10⁻⁸`, on every element. -/
theorem C79_converged (E : Fin 3 → Fin 8 → ℝ) (pos : Fin 3 → ℝ) (r : Inverse)
    (h : isoInverse E pos = some r) (hc : r.converged = true) :
    (pos 0 - hexPos E r.iso 0) ^ 2 + (pos 1 - hexPos E r.iso 1) ^ 2
      + (pos 2 - hexPos E r.iso 2) ^ 2 < (1 / 10 ^ 8) ^ 2 := by
  have key : ∀ fuel p x, inverseLoop E pos fuel p x = some r →
      len (fun i => pos i - hexPos E r.iso i) < 1 / 10 ^ 8 := by
    intro fuel
    induction fuel with
    | zero =>
      intro p x h
      simp only [inverseLoop, Option.some.injEq] at h
      rw [← h] at hc
      simp at hc
    | succ n ih =>
      intro p x h
      simp only [inverseLoop] at h
      split at h
      · simp at h
      · rename_i q hq
        split_ifs at h with hlt
        · simp only [Option.some.injEq] at h
          rw [← h]; exact hlt
        · exact ih _ _ h
  have h1 := key _ _ _ h
  have h2 : len (fun i => pos i - hexPos E r.iso i) ^ 2 < (1 / 10 ^ 8) ^ 2 :=
    pow_lt_pow_left₀ h1 (len_nonneg _) two_ne_zero
  rw [sq_len] at h2
  unfold dot at h2
  calc _ = _ := by ring
    _ < _ := h2

/-- C79: on every element the search follows Newton's method for the position: there is a sequence of
local coordinates starting at the centre of the element, each step of which solves the problem
linearised at the coordinates reached; the coordinates returned are the first ones after the start
that describe the wanted position up to `10⁻⁸`, or those after a thousand steps, and the flag tells
which. -/
theorem C79_newton_sequence (E : Fin 3 → Fin 8 → ℝ) (pos : Fin 3 → ℝ) (r : Inverse)
    (h : isoInverse E pos = some r) :
    ∃ (z : ℕ → Fin 3 → ℝ) (m : ℕ), z 0 = 0 ∧ z m = r.iso ∧ 1 ≤ m ∧ m ≤ 1000 ∧
      (∀ n < m, ∀ i, ∑ d, hexJac E (z n) i d * (z (n + 1) d - z n d) = pos i - hexPos E (z n) i) ∧
      (∀ n < m, 1 ≤ n → 1 / 10 ^ 8 ≤ len (fun i => pos i - hexPos E (z n) i)) ∧
      (r.converged = true ↔ len (fun i => pos i - hexPos E (z m) i) < 1 / 10 ^ 8) ∧
      (r.converged = false → m = 1000) := by
  have hcentre : centre E = hexPos E (fun _ => 0) := by
    funext i
    simp only [centre, hexPos, Fin.sum_univ_eight, hexPhi_0, hexPhi_1, hexPhi_2, hexPhi_3, hexPhi_4,
      hexPhi_5, hexPhi_6, hexPhi_7]
    ring
  have key : ∀ fuel p, inverseLoop E pos (fuel + 1) p (hexPos E p) = some r →
      ∃ (z : ℕ → Fin 3 → ℝ) (m : ℕ), z 0 = p ∧ z m = r.iso ∧ 1 ≤ m ∧ m ≤ fuel + 1 ∧
      (∀ n < m, ∀ i, ∑ d, hexJac E (z n) i d * (z (n + 1) d - z n d) = pos i - hexPos E (z n) i) ∧
      (∀ n < m, 1 ≤ n → 1 / 10 ^ 8 ≤ len (fun i => pos i - hexPos E (z n) i)) ∧
      (r.converged = true ↔ len (fun i => pos i - hexPos E (z m) i) < 1 / 10 ^ 8) ∧
      (r.converged = false → m = fuel + 1) := by
    intro fuel
    induction fuel with
    | zero =>
      intro p h
      simp only [inverseLoop] at h
      split at h
      · simp at h
      · rename_i q hq
        have hlin := C79_update_linearised E pos p (hexPos E p) q hq
        refine ⟨fun n => if n = 0 then p else q, 1, if_pos rfl, ?_, le_rfl, le_rfl, ?_, ?_, ?_,
          fun _ => rfl⟩
        · split_ifs at h with hlt <;> (simp only [Option.some.injEq] at h; rw [← h]; rfl)
        · intro n hn i
          obtain rfl : n = 0 := by omega
          exact hlin i
        · intro n hn h1; omega
        · show _ ↔ len (fun i => pos i - hexPos E q i) < _
          split_ifs at h with hlt <;> (simp only [Option.some.injEq] at h; rw [← h])
          · exact ⟨fun _ => hlt, fun _ => rfl⟩
          · exact ⟨fun h => absurd h (by simp), fun h => absurd h hlt⟩
    | succ fuel ih =>
      intro p h
      rw [inverseLoop] at h
      split at h
      · simp at h
      · rename_i q hq
        have hlin := C79_update_linearised E pos p (hexPos E p) q hq
        split_ifs at h with hlt
        · simp only [Option.some.injEq] at h
          refine ⟨fun n => if n = 0 then p else q, 1, if_pos rfl, ?_, le_rfl, by omega, ?_, ?_, ?_, ?_⟩
          · rw [← h]; rfl
          · intro n hn i
            obtain rfl : n = 0 := by omega
            exact hlin i
          · intro n hn h1; omega
          · show _ ↔ len (fun i => pos i - hexPos E q i) < _
            rw [← h]; exact ⟨fun _ => hlt, fun _ => rfl⟩
          · rw [← h]; simp
        · obtain ⟨z, m, z0, zm, h1, h2, h3, h4, h5, h6⟩ := ih q h
          refine ⟨fun n => if n = 0 then p else z (n - 1), m + 1, if_pos rfl, ?_, by omega, by omega,
            ?_, ?_, ?_, fun hc => by rw [h6 hc]⟩
          · simpa using zm
          · intro n hn i
            match n with
            | 0 => simpa [z0] using hlin i
            | n + 1 => simpa using h3 n (by omega) i
          · intro n hn hn1
            match n with
            | 0 => omega
            | n + 1 =>
              rcases Nat.eq_zero_or_pos n with rfl | hp
              · simpa [z0] using not_lt.mp hlt
              · simpa using h4 n (by omega) hp
          · simpa using h5
  unfold isoInverse at h
  rw [hcentre] at h
  exact key 999 _ h

/-- C79: on a parallelepiped the search finds the exact local coordinates of every position. -/
theorem C79_parallelepiped (c : Fin 3 → ℝ) (e : Fin 3 → Fin 3 → ℝ) (h : det e ≠ 0) (p : Fin 3 → ℝ) :
    isoInverse (boxElem c e) (hexPos (boxElem c e) p) = some ⟨p, true⟩ := by
  have hn : newton (boxElem c e) (hexPos (boxElem c e) p) (fun _ => 0) (centre (boxElem c e))
      = some p := by
    simp only [newton, box_jac]
    rw [if_neg h, box_centre]
    congr 1
    funext j
    have := inv_mul e h p j
    rw [zero_add]
    refine Eq.trans ?_ this
    refine Finset.sum_congr rfl fun k _ => ?_
    rw [box_pos, Fin.sum_univ_three]
    ring
  unfold isoInverse
  have hstep : ∀ m, inverseLoop (boxElem c e) (hexPos (boxElem c e) p) (m + 1) (fun _ => 0)
      (centre (boxElem c e)) = some ⟨p, true⟩ := by
    intro m
    rw [inverseLoop, hn]
    have h0 : len (fun i => hexPos (boxElem c e) p i - hexPos (boxElem c e) p i) = 0 := by
      rw [len_eq_zero]; funext i; simp
    simp only [h0]
    rw [if_pos (by positivity)]
  exact hstep 999

/-- C79: the point used for a contact pair is the foot of the perpendicular from the node on the
plane through a point of the patch. -/
theorem C79_foot (n a x P : Fin 3 → ℝ) (h : foot n a x = some P) :
    dot n (fun i => P i - a i) = 0 ∧ ∃ c : ℝ, ∀ i, x i - P i = c * n i := by
  simp only [foot] at h
  split_ifs at h with h0
  simp only [Option.some.injEq] at h
  subst h
  have h1 : -n 0 * n 0 - n 1 * n 1 - n 2 * n 2 ≠ 0 := by
    intro h2; apply h0; unfold dot; linarith
  refine ⟨?_, ⟨-((n 0 * (x 0 - a 0) + n 1 * (x 1 - a 1) + n 2 * (x 2 - a 2))
      / (-n 0 * n 0 - n 1 * n 1 - n 2 * n 2)), fun i => by ring⟩⟩
  unfold dot
  have : ∀ s : ℝ, n 0 * (x 0 + s * n 0 - a 0) + n 1 * (x 1 + s * n 1 - a 1)
      + n 2 * (x 2 + s * n 2 - a 2)
      = (n 0 * (x 0 - a 0) + n 1 * (x 1 - a 1) + n 2 * (x 2 - a 2))
        - s * (-n 0 * n 0 - n 1 * n 1 - n 2 * n 2) := fun s => by ring
  rw [this, div_mul_cancel₀ _ h1, sub_self]

/-- C79: it is the nearest point of that plane. -/
theorem C79_foot_nearest (n a x P Q : Fin 3 → ℝ) (h : foot n a x = some P)
    (hQ : dot n (fun i => Q i - a i) = 0) :
    len (fun i => x i - P i) ≤ len (fun i => x i - Q i) := by
  obtain ⟨hP, c, hc⟩ := C79_foot n a x P h
  have hperp : dot (fun i => x i - P i) (fun i => P i - Q i) = 0 := by
    have : dot (fun i => x i - P i) (fun i => P i - Q i)
        = c * (dot n (fun i => P i - a i) - dot n (fun i => Q i - a i)) := by
      simp only [dot, hc]; ring
    rw [this, hP, hQ]; ring
  apply le_of_sq_le_sq _ (len_nonneg _)
  rw [sq_len, sq_len]
  have : dot (fun i => x i - Q i) (fun i => x i - Q i)
      = dot (fun i => x i - P i) (fun i => x i - P i) + 2 * dot (fun i => x i - P i) (fun i => P i - Q i)
        + dot (fun i => P i - Q i) (fun i => P i - Q i) := by
    simp only [dot]; ring
  rw [this, hperp]
  have h3 : 0 ≤ dot (fun i => P i - Q i) (fun i => P i - Q i) := by
    rw [← sq_len]; positivity
  linarith

/-- C79: for a node in front of any face of a parallelepiped, the patch coordinates stored with the
pair describe, as point of the patch, exactly the foot of the perpendicular from the node. -/
theorem C79_pair_point (c : Fin 3 → ℝ) (e : Fin 3 → Fin 3 → ℝ) (h : det e ≠ 0) (f : Fin 6)
    (x : Fin 3 → ℝ) :
    ∃ n P r, unitNormal (facePos (boxElem c e) f) 0 0 = some n ∧
      foot n (fun i => facePos (boxElem c e) f i 0) x = some P ∧
      isoInverse (boxElem c e) P = some r ∧ r.converged = true ∧
      ∀ i, refToPhysical (facePos (boxElem c e) f) (toPatch f r.iso).1 (toPatch f r.iso).2 i = P i := by
  have hn := box_unitNormal c e h f 0 0
  obtain ⟨hu, -⟩ := ((C76_normal (facePos (boxElem c e) f) 0 0).2 _ hn)
  obtain ⟨n, hne⟩ : ∃ n, n = fun i => faceSide f * cross (edge e (faceDir f + 1))
    (edge e (faceDir f + 2)) i / len (cross (edge e (faceDir f + 1)) (edge e (faceDir f + 2))) :=
      ⟨_, rfl⟩
  rw [← hne] at hn hu
  obtain ⟨P, hP⟩ : ∃ P, foot n (fun i => facePos (boxElem c e) f i 0) x = some P := by
    simp only [foot]
    rw [if_neg (by rw [hu]; exact one_ne_zero)]
    exact ⟨_, rfl⟩
  -- local coordinates of `P`
  obtain ⟨p, hp⟩ : ∃ p : Fin 3 → ℝ, ∀ i, hexPos (boxElem c e) p i = P i := by
    refine ⟨fun j => ∑ k, inv e j k * (P k - c k), fun i => ?_⟩
    rw [box_pos]
    have := C79_update_linearised (boxElem c e) P (fun _ => 0) c
      (fun j => ∑ k, inv e j k * (P k - c k)) (by
        simp only [newton, box_jac]; rw [if_neg h]; simp) i
    rw [box_jac, Fin.sum_univ_three] at this
    simp only [sub_zero] at this
    linarith
  have hpe : P = hexPos (boxElem c e) p := funext fun i => (hp i).symm
  have hr := C79_parallelepiped c e h p
  rw [← hpe] at hr
  refine ⟨n, P, ⟨p, true⟩, hn, hP, hr, rfl, fun i => ?_⟩
  -- `P` lies in the plane of the face
  obtain ⟨hplane, -⟩ := C79_foot _ _ _ _ hP
  have hface : p (faceDir f) = faceSide f := by
    have hL := edge_cross_ne e h (faceDir f)
    have hd := box_dot c e f p
    have hd0 : dot (fun i => facePos (boxElem c e) f i 0 - faceCentre (boxElem c e) f i)
        (cross (edge e (faceDir f + 1)) (edge e (faceDir f + 2))) = 0 := by
      have hb := box_dot c e f (fun d => hexSign (faceNode f 0) d)
      have e1 : (fun i => c i + ((hexSign (faceNode f 0) 0) * e i 0 + (hexSign (faceNode f 0) 1) * e i 1
          + (hexSign (faceNode f 0) 2) * e i 2) - faceCentre (boxElem c e) f i)
          = fun i => facePos (boxElem c e) f i 0 - faceCentre (boxElem c e) f i := rfl
      rw [e1] at hb
      rw [hb]
      have : (hexSign (faceNode f 0) (faceDir f) : ℝ) = faceSide f := by
        match f with
        | 0 => rfl
        | 1 => rfl
        | 2 => rfl
        | 3 => rfl
        | 4 => rfl
        | 5 => rfl
      rw [this, sub_self, zero_mul]
    have hx : dot (cross (edge e (faceDir f + 1)) (edge e (faceDir f + 2)))
        (fun i => P i - facePos (boxElem c e) f i 0) = 0 := by
      have e2 : dot n (fun i => P i - facePos (boxElem c e) f i 0)
          = faceSide f / len (cross (edge e (faceDir f + 1)) (edge e (faceDir f + 2)))
            * dot (cross (edge e (faceDir f + 1)) (edge e (faceDir f + 2)))
              (fun i => P i - facePos (boxElem c e) f i 0) := by
        rw [hne]; unfold dot; ring
      rw [e2] at hplane
      rcases mul_eq_zero.mp hplane with h1 | h1
      · rcases div_eq_zero_iff.mp h1 with h2 | h2
        · have := faceSide_sq f; rw [h2] at this; norm_num at this
        · exact absurd h2 hL
      · exact h1
    have e3 : (fun i => c i + (p 0 * e i 0 + p 1 * e i 1 + p 2 * e i 2)
        - faceCentre (boxElem c e) f i) = fun i => P i - faceCentre (boxElem c e) f i := by
      funext i; rw [hpe, box_pos]
    rw [e3] at hd
    have e4 : dot (fun i => P i - faceCentre (boxElem c e) f i)
        (cross (edge e (faceDir f + 1)) (edge e (faceDir f + 2))) = 0 := by
      have : dot (fun i => P i - faceCentre (boxElem c e) f i)
          (cross (edge e (faceDir f + 1)) (edge e (faceDir f + 2)))
          = dot (cross (edge e (faceDir f + 1)) (edge e (faceDir f + 2)))
              (fun i => P i - facePos (boxElem c e) f i 0)
            + dot (fun i => facePos (boxElem c e) f i 0 - faceCentre (boxElem c e) f i)
              (cross (edge e (faceDir f + 1)) (edge e (faceDir f + 2))) := by
        unfold dot; ring
      rw [this, hx, hd0, add_zero]
    rw [e4] at hd
    rcases mul_eq_zero.mp hd.symm with h1 | h1
    · linarith
    · exact absurd h1 h
  have := C77_face_coordinates (boxElem c e) f p hface i
  rw [← this, hpe]

example : det (cubeEdges 1) ≠ 0 := by rw [cube_det]; norm_num

end Fierro
