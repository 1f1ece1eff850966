/-
Decidable equality of values, errors and results, used to evaluate concrete cases.
-/
import Verif.Model.Frame
namespace Verif

mutual
/-- Boolean equality of values. -/
def Val.same : Val → Val → Bool
  | .nil, .nil => true
  | .bool a, .bool b => a == b
  | .int k n, .int k' n' => k = k' && n = n'
  | .float32 a, .float32 b => a = b
  | .float64 a, .float64 b => a = b
  | .str a, .str b => a = b
  | .list i vs, .list j ws => i == j && sameList vs ws
  | .map es, .map fs => sameEntries es fs
  | .struct k fs, .struct k' gs => k = k' && sameList fs gs
  | .date a, .date b => a = b
  | .clock a b, .clock c d => a = c && b = d
  | .localClock a, .localClock b => a = b
  | .localTime a b, .localTime c d => a = c && b = d
  | .time a b c, .time d e f => a = d && b = e && c = f
  | .duration a, .duration b => a = b
  | .other, .other => true
  | _, _ => false
def sameList : List Val → List Val → Bool
  | [], [] => true
  | v :: vs, w :: ws => v.same w && sameList vs ws
  | _, _ => false
def sameEntries : Entries → Entries → Bool
  | [], [] => true
  | (k, v) :: vs, (k', w) :: ws => k = k' && v.same w && sameEntries vs ws
  | _, _ => false
end

mutual
theorem Val.same_sound : (v w : Val) → v.same w = true → v = w
  | v, w, h => by
    cases v <;> cases w <;> simp only [Val.same, Bool.and_eq_true, decide_eq_true_eq, beq_iff_eq, Bool.false_eq_true] at h
    all_goals first
      | rfl
      | (subst h; rfl)
      | (obtain ⟨rfl, rfl⟩ := h; rfl)
      | (obtain ⟨⟨rfl, rfl⟩, rfl⟩ := h; rfl)
      | (obtain ⟨rfl, h⟩ := h; rw [sameList_sound _ _ h])
      | rw [sameEntries_sound _ _ h]
theorem sameList_sound : (v w : List Val) → sameList v w = true → v = w
  | [], [], _ => rfl
  | v :: vs, w :: ws, h => by
    simp only [sameList, Bool.and_eq_true] at h
    rw [Val.same_sound v w h.1, sameList_sound vs ws h.2]
  | [], _ :: _, h => by simp [sameList] at h
  | _ :: _, [], h => by simp [sameList] at h
theorem sameEntries_sound : (v w : Entries) → sameEntries v w = true → v = w
  | [], [], _ => rfl
  | (k, v) :: vs, (k', w) :: ws, h => by
    simp only [sameEntries, Bool.and_eq_true, decide_eq_true_eq] at h
    rw [h.1.1, Val.same_sound v w h.1.2, sameEntries_sound vs ws h.2]
  | [], _ :: _, h => by simp [sameEntries] at h
  | _ :: _, [], h => by simp [sameEntries] at h
end

mutual
theorem Val.same_refl : (v : Val) → v.same v = true
  | .nil | .bool _ | .int _ _ | .float32 _ | .float64 _ | .str _ | .date _ | .clock _ _ | .localClock _ | .localTime _ _ | .time _ _ _
  | .duration _ | .other => by simp [Val.same]
  | .list _ vs => by simp [Val.same, sameList_refl vs]
  | .map es => by simp [Val.same, sameEntries_refl es]
  | .struct _ fs => by simp [Val.same, sameList_refl fs]
theorem sameList_refl : (v : List Val) → sameList v v = true
  | [] => rfl
  | v :: vs => by simp [sameList, Val.same_refl v, sameList_refl vs]
theorem sameEntries_refl : (v : Entries) → sameEntries v v = true
  | [] => rfl
  | (k, v) :: vs => by simp [sameEntries, Val.same_refl v, sameEntries_refl vs]
end

instance : DecidableEq Val := fun v w =>
  if h : v.same w = true then .isTrue (Val.same_sound v w h) else .isFalse (fun e => h (e ▸ Val.same_refl v))

def GoErr.decEq {χ : Type} [DecidableEq χ] : (a b : GoErr χ) → Decidable (a = b)
  | .eof, b => by cases b <;> first | exact .isTrue rfl | exact .isFalse (by simp)
  | .unexpectedEOF, b => by cases b <;> first | exact .isTrue rfl | exact .isFalse (by simp)
  | .badConn, b => by cases b <;> first | exact .isTrue rfl | exact .isFalse (by simp)
  | .failure m, .failure m' => if h : m = m' then .isTrue (h ▸ rfl) else .isFalse (by simp [h])
  | .failure _, .eof | .failure _, .unexpectedEOF | .failure _, .badConn | .failure _, .plain _ | .failure _, .bolt _ _ => .isFalse (by simp)
  | .plain m, .plain m' => if h : m = m' then .isTrue (h ▸ rfl) else .isFalse (by simp [h])
  | .plain _, .eof | .plain _, .unexpectedEOF | .plain _, .badConn | .plain _, .failure _ | .plain _, .bolt _ _ => .isFalse (by simp)
  | .bolt m none, .bolt m' none => if h : m = m' then .isTrue (h ▸ rfl) else .isFalse (by simp [h])
  | .bolt m (some e), .bolt m' (some e') =>
    if h : m = m' then
      match GoErr.decEq e e' with
      | .isTrue h' => .isTrue (by rw [h, h'])
      | .isFalse h' => .isFalse (by simp [h'])
    else .isFalse (by simp [h])
  | .bolt _ none, .bolt _ (some _) | .bolt _ (some _), .bolt _ none => .isFalse (by simp)
  | .bolt _ _, .eof | .bolt _ _, .unexpectedEOF | .bolt _ _, .badConn | .bolt _ _, .failure _ | .bolt _ _, .plain _ => .isFalse (by simp)

instance {χ : Type} [DecidableEq χ] : DecidableEq (GoErr χ) := GoErr.decEq

deriving instance DecidableEq for Res
deriving instance DecidableEq for RRes
deriving instance DecidableEq for DRes

/-- An ambient environment for examples. -/
def env0 : Env := ⟨fun _ => 0, fun _ => (0, 0, 0), fun _ => none⟩

example : decode env0 .v2 ([0x82, 0x61] ++ [0x62]) = .ok (.str [0x61, 0x62], []) := by decide +kernel

end Verif
