import Verif.Model.X86Int
import Mathlib.Tactic.IntervalCases
/-! Lemmas about lanes of wide elements. -/
namespace StdSimd.X86

theorem getLsbD_lane {W : Nat} (w : Nat) (g : BitVec W) (i j : Nat) :
    (lane w g i).getLsbD j = (decide (j < w) && g.getLsbD (w * i + j)) := by
  simp [lane]

theorem getLsbD_join {w W : Nat} (hw : 0 < w) (k : Nat) (f : Nat → BitVec w) (j : Nat) :
    (join W k f).getLsbD j = (decide (j < W) && decide (j < w * k) && (f (j / w)).getLsbD (j % w)) := by
  induction k with
  | zero => simp [join]
  | succ k ih =>
    rw [join, BitVec.getLsbD_or, ih, BitVec.getLsbD_shiftLeft, BitVec.getLsbD_setWidth]
    by_cases hj : j < W
    · by_cases h1 : j < w * k
      · have : j < w * (k + 1) := Nat.lt_of_lt_of_le h1 (Nat.mul_le_mul_left w (by omega))
        simp [hj, h1, this]
      · by_cases h2 : j < w * (k + 1)
        · have hd : j / w = k := by
            rw [Nat.mul_succ] at h2
            exact Nat.div_eq_of_lt_le (by rw [Nat.mul_comm]; omega) (by rw [Nat.mul_comm, Nat.mul_succ]; exact h2)
          have hm : j % w = j - w * k := by
            have := Nat.div_add_mod j w; rw [hd] at this; omega
          simp [hj, h1, h2, hd, hm]
          omega
        · have h3 : w ≤ j - w * k := by rw [Nat.mul_succ] at h2; omega
          simp [hj, h1, h2, BitVec.getLsbD_of_ge _ _ h3]
    · simp [hj]

theorem lane_join {w W : Nat} (hw : 0 < w) (k : Nat) (f : Nat → BitVec w) (i : Nat) (hi : i < k) (hW : w * k ≤ W) :
    lane w (join W k f) i = f i := by
  apply BitVec.eq_of_getLsbD_eq
  intro j hj
  have h1 : w * i + j < w * k := by
    have := Nat.mul_le_mul_left w (show i + 1 ≤ k from hi)
    rw [Nat.mul_succ] at this; omega
  have hd : (w * i + j) / w = i := by rw [Nat.mul_add_div hw, Nat.div_eq_of_lt hj]; rfl
  have hm : (w * i + j) % w = j := by rw [Nat.mul_add_mod, Nat.mod_eq_of_lt hj]
  rw [getLsbD_lane, getLsbD_join hw, hd, hm]
  simp [hj, h1]; omega

theorem overGroups1_eq {w : Nat} (W k : Nat) (hw : 0 < w) (hk : 0 < k) (hW : w * k ≤ W) (F : BitVec W → BitVec W)
    (f : BitVec w → BitVec w) (h : ∀ g i, i < k → lane w (F g) i = f (lane w g i)) (xs : List (BitVec w)) :
    overGroups1 W k F xs = xs.map f := by
  apply List.ext_getElem (by simp [overGroups1])
  intro j h1 h2
  have hj : j < xs.length := by simpa using h2
  have hm : j % k < k := Nat.mod_lt _ hk
  simp only [overGroups1, List.getElem_map, List.getElem_range]
  rw [h _ _ hm, group, lane_join hw k _ _ hm hW, Nat.div_add_mod, List.getD_eq_getElem?_getD,
    List.getElem?_eq_getElem hj]
  rfl

theorem overGroups2_eq {w : Nat} (W k : Nat) (hw : 0 < w) (hk : 0 < k) (hW : w * k ≤ W)
    (F : BitVec W → BitVec W → BitVec W) (f : BitVec w → BitVec w → BitVec w) (P : BitVec w → Prop) (hP : P 0#w)
    (h : ∀ g y i, (∀ i < k, P (lane w y i)) → i < k → lane w (F g y) i = f (lane w g i) (lane w y i))
    (xs ys : List (BitVec w)) (hl : xs.length = ys.length) (hy : ∀ y ∈ ys, P y) :
    overGroups2 W k F xs ys = List.zipWith f xs ys := by
  apply List.ext_getElem (by simp [overGroups2, hl])
  intro j h1 h2
  have hj : j < xs.length := by simp at h2; omega
  have hj' : j < ys.length := by simp at h2; omega
  have hm : j % k < k := Nat.mod_lt _ hk
  simp only [overGroups2, List.getElem_map, List.getElem_range, List.getElem_zipWith]
  rw [h _ _ _ ?_ hm, group, group, lane_join hw k _ _ hm hW, lane_join hw k _ _ hm hW, Nat.div_add_mod,
    List.getD_eq_getElem?_getD, List.getD_eq_getElem?_getD, List.getElem?_eq_getElem hj, List.getElem?_eq_getElem hj']
  · rfl
  · intro i hi
    rw [group, lane_join hw k _ _ hi hW, List.getD_eq_getElem?_getD]
    by_cases h3 : k * (j / k) + i < ys.length
    · rw [List.getElem?_eq_getElem h3]; exact hy _ (List.getElem_mem h3)
    · rw [List.getElem?_eq_none (by omega)]; exact hP

theorem lane_bytes1 (f : BitVec 8 → BitVec 8) (a : BitVec 16) (i : Nat) (hi : i < 2) :
    lane 8 (bytes1 f a) i = f (lane 8 a i) := lane_join (by omega) 2 _ i hi (by omega)

theorem lane_bytes2 (f : BitVec 8 → BitVec 8 → BitVec 8) (a b : BitVec 16) (i : Nat) (hi : i < 2) :
    lane 8 (bytes2 f a b) i = f (lane 8 a i) (lane 8 b i) := lane_join (by omega) 2 _ i hi (by omega)

theorem lane_blendBytes (m a b : BitVec 16) (i : Nat) (hi : i < 2) :
    lane 8 (blendBytes m a b) i = if (lane 8 m i).msb then lane 8 b i else lane 8 a i :=
  lane_join (by omega) 2 _ i hi (by omega)

theorem lane_and {W : Nat} (w : Nat) (a b : BitVec W) (i : Nat) : lane w (a &&& b) i = lane w a i &&& lane w b i := by
  apply BitVec.eq_of_getLsbD_eq; intro j hj; simp only [getLsbD_lane, BitVec.getLsbD_and]; cases decide (j < w) <;> simp
theorem lane_or {W : Nat} (w : Nat) (a b : BitVec W) (i : Nat) : lane w (a ||| b) i = lane w a i ||| lane w b i := by
  apply BitVec.eq_of_getLsbD_eq; intro j hj; simp only [getLsbD_lane, BitVec.getLsbD_or]; cases decide (j < w) <;> simp

end StdSimd.X86
