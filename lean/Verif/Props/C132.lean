/-
C132  The keys of a parameter map are the names the server is told.
-/
import Verif.Model.Params
import Verif.Props.C01
import Verif.Props.C17
namespace Verif
open Spec

/-- An iteration over a map meets every entry once, in any order. -/
def Iterates (iter : Entries → Entries) : Prop := ∀ m, (iter m).Perm m

theorem storeKeys_all (es : Entries) : ∀ (pre rest : List Bytes), rest.length = es.length →
    storeKeys (pre ++ rest) pre.length es = .ok (pre ++ es.map Prod.fst) := by
  induction es with
  | nil => intro pre rest h; cases rest with
    | nil => rfl
    | cons _ _ => simp at h
  | cons p es ih =>
    obtain ⟨k, v⟩ := p
    intro pre rest h
    cases rest with
    | nil => simp at h
    | cons r rest =>
      have := ih (pre ++ [k]) rest (by simpa using h)
      simp only [List.length_append, List.length_cons, List.length_nil, List.append_assoc, List.cons_append, List.nil_append] at this
      simp [storeKeys, this]

/-- Whatever the order of the iteration, `GetKeys` returns the name of every parameter once and nothing else: a name is in the result exactly if
looking it up in the map finds something, no name is there twice, and there are as many as the map has entries. -/
theorem C132_keys (iter : Entries → Entries) (hi : Iterates iter) (m : Entries) (hn : (m.map Prod.fst).Nodup) :
    ∃ ks, (ParamsPtr.ref m).getKeys iter = .ok ks ∧ ks.Nodup ∧ ks.length = m.length ∧ ∀ k, k ∈ ks ↔ ∃ v, mapGet m k = some v := by
  have hl : (iter m).length = m.length := (hi m).length_eq
  have hp : ((iter m).map Prod.fst).Perm (m.map Prod.fst) := (hi m).map _
  refine ⟨(iter m).map Prod.fst, ?_, hp.nodup_iff.mpr hn, by simpa using hl, fun k => ?_⟩
  · have := storeKeys_all (iter m) [] (List.replicate m.length []) (by simpa using hl.symm)
    simpa [ParamsPtr.getKeys] using this
  · rw [hp.mem_iff]
    clear hp hl hn
    induction m with
    | nil => simp [mapGet]
    | cons p m ih =>
      obtain ⟨k', v'⟩ := p
      by_cases h : k' = k
      · subst h; simp [mapGet]
      · simp [mapGet, h, ih, Ne.symm h]

/-- The map behind the pointer is what is sent, and its names are the names received: when the peer decodes the parameters (in any iteration order
on this side) it has a map for which `GetKeys`, iterating in an order of its own, gives the same names. -/
theorem C132_sent (env : Env) (ver : Ver) (iter iter' : Entries → Entries) (hi : Iterates iter) (hi' : Iterates iter') (p : ParamsPtr) (m sent : Entries)
    (hg : p.getMap = .ok (some m)) (ho : sent.Perm m)
    (hd : (Val.map m).All (decodable ver)) (hr : (Val.map m).All intsInRange) (hl : (Val.map m).All readable)
    (hs : (Val.map m).All (strAtMost 65535)) :
    ∃ got ks ks', unmarshal env ver (marshal env ver (.map sent)).1 = .ok (.map got) ∧ p.getKeys iter = .ok ks ∧
      (ParamsPtr.ref got).getKeys iter' = .ok ks' ∧ ks.Perm ks' := by
  cases p with
  | nilPtr => simp [ParamsPtr.getMap] at hg
  | nilMap => simp [ParamsPtr.getMap] at hg
  | ref x =>
  simp only [ParamsPtr.getMap, Res.ok.injEq, Option.some.injEq] at hg
  subst hg
  have hre : Reorder (.map x) (.map sent) := .perm ho.symm
  have h := (C01_roundtrip env ver (.map sent) (hre.all (decodable_orderFree ver) hd) (hre.all intsInRange_orderFree hr)
    (hre.all readable_orderFree hl) (hre.all (strAtMost_orderFree _) hs)).2
  simp only [canon, canonEntries_eq] at h
  have key : ∀ (it : Entries → Entries), Iterates it → ∀ x : Entries, (ParamsPtr.ref x).getKeys it = .ok ((it x).map Prod.fst) := by
    intro it hit x
    have := storeKeys_all (it x) [] (List.replicate x.length []) (by simpa using (hit x).length_eq.symm)
    simpa [ParamsPtr.getKeys] using this
  refine ⟨_, _, _, h, key iter hi x, key iter' hi' _, ?_⟩
  refine ((hi x).map _).trans (((ho.symm.map Prod.fst).trans ?_).trans ((hi' _).map _).symm)
  rw [List.map_map]; exact .refl _

/-- `GetKeys` and `GetMap` work on a nil map, and panic exactly on the nil pointer; `Get2DSlice` hands over the rows as they are. -/
theorem C132_nil (iter : Entries → Entries) (hi : Iterates iter) (p : ParamsPtr) :
    (p.getKeys iter = .panic ↔ p = .nilPtr) ∧ (p.getMap = .panic ↔ p = .nilPtr) ∧ (p = .nilMap → p.getKeys iter = .ok [] ∧ p.getMap = .ok none) ∧
      ∀ rows, get2DSlice (some rows) = .ok rows := by
  refine ⟨?_, ?_, ?_, fun _ => rfl⟩
  · cases p with
    | nilPtr => simp [ParamsPtr.getKeys]
    | nilMap => simp [ParamsPtr.getKeys, storeKeys]
    | ref m =>
      have := storeKeys_all (iter m) [] (List.replicate m.length []) (by simpa using (hi m).length_eq.symm)
      simp only [List.nil_append, List.length_nil] at this
      simp [ParamsPtr.getKeys, this]
  · cases p <;> simp [ParamsPtr.getMap]
  · rintro rfl; exact ⟨rfl, rfl⟩

/-- Two parameters, iterated backwards. -/
example : Iterates List.reverse ∧ (([([0x61], Val.nil), ([0x62], .bool true)] : Entries).map Prod.fst).Nodup ∧
    (ParamsPtr.ref [([0x61], .nil), ([0x62], .bool true)]).getKeys List.reverse = .ok [[0x62], [0x61]] :=
  ⟨fun m => List.reverse_perm m, by decide, rfl⟩

/-- The hypotheses of `C132_sent` hold for a map of two parameters, sent in the other order. -/
example : let m : Entries := [([0x61], .int .int 7), ([0x62], .list true [.str [0x63]])]
    (ParamsPtr.ref m).getMap = .ok (some m) ∧ m.reverse.Perm m ∧ (Val.map m).All (decodable .v2) ∧ (Val.map m).All intsInRange ∧
      (Val.map m).All readable ∧ (Val.map m).All (strAtMost 65535) := by
  refine ⟨rfl, List.reverse_perm _, ?_, ?_, ?_, ?_⟩
  · simp [Val.All, AllList, AllEntries, decodable]
  · simp [Val.All, AllList, AllEntries, intsInRange, IntKind.InRange]
  · simp [Val.All, AllList, AllEntries, readable, readableLen]
  · simp [Val.All, AllList, AllEntries, strAtMost]

/-- The loop on its own would write behind the end of a slice that is too short. -/
example : storeKeys [] 0 [([0x61], .nil)] = .panic := rfl

end Verif
