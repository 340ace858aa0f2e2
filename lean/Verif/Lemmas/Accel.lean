import Verif.Lemmas.Workbook
import Verif.Model.Listen
/-! Helper lemmas for C101: an acceleration is read as it was written. -/

namespace PRpc

theorem zig_zag (n : BitVec 16) :
    ((((n <<< 1) ^^^ (n.sshiftRight 15)) >>> 1) ^^^ (-(((n <<< 1) ^^^ (n.sshiftRight 15)) &&& 1#16))) = n := by
  have h1 : ((n <<< 1) ^^^ (n.sshiftRight 15)) &&& 1#16 = if n.msb then 1#16 else 0#16 := by
    apply BitVec.eq_of_getLsbD_eq
    intro i hi
    cases hm : n.msb <;> simp [BitVec.getLsbD_sshiftRight, hm] <;> rcases i with _ | i <;> simp_all [BitVec.msb_eq_getLsbD_last]
  rw [h1]
  apply BitVec.eq_of_getLsbD_eq
  intro i hi
  have hmsb : n.msb = n.getLsbD 15 := BitVec.msb_eq_getLsbD_last n
  rcases Nat.lt_or_ge i 15 with h | h
  · have b1 : 1 + i < 16 := by omega
    have b2 : ¬ 16 ≤ 1 + i := by omega
    have b3 : ¬ 15 + (1 + i) < 16 := by omega
    have b4 : (65535#16)[i] = true := BitVec.getElem_allOnes i hi
    cases hm : n.msb <;> simp_all [BitVec.getElem_sshiftRight] <;> (split <;> first | omega | simp)
  · have : i = 15 := by omega
    subst this
    cases hm : n.msb <;> simp_all

theorem reads_i16 (n : BitVec 16) : Reads take_i16 (enc_i16 n) n := by
  have h := reads_usize (wd := 2) (wh := 2) (n := ((n <<< 1) ^^^ (n.sshiftRight 15)).toNat) (BitVec.isLt _) (by omega) (BitVec.isLt _) (by simp)
  have h2 := reads_map (f := fun n => (BitVec.ofNat 16 n >>> 1) ^^^ (-(BitVec.ofNat 16 n &&& 1#16))) h
  rw [BitVec.ofNat_toNat, BitVec.setWidth_eq, zig_zag] at h2
  exact h2

theorem local_i16 : LocalDec take_i16 := local_bind (local_varint _ _) fun _ => local_pure _

theorem reads_accel (a : Acceleration) : Reads take_accel (enc_accel a) a :=
  reads_bind (reads_i16 _) (reads_bind (reads_i16 _) (reads_map (f := fun z => (⟨a.x, a.y, z⟩ : Acceleration)) (reads_i16 _)))

theorem local_accel : LocalDec take_accel :=
  local_bind local_i16 fun _ => local_bind local_i16 fun _ => local_bind local_i16 fun _ => local_pure _

end PRpc
