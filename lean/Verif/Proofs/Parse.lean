/-
A reference reader for the grammar with unsigned lengths, used only to show that the grammar is unambiguous.
-/
import Verif.Proofs.DecRel
namespace Verif
open Spec

/-- Unsigned length field. -/
def takeLen (k : Nat) (b : Bytes) : Option (Nat × Bytes) := if b.length < k then none else some (ofBE (b.take k), b.drop k)

/-- `n` bytes. -/
def takeBytes (n : Nat) (b : Bytes) : Option (Bytes × Bytes) := if b.length < n then none else some (b.take n, b.drop n)

/-- Repeat a reader. -/
def parseN (p : Bytes → Option (PS × Bytes)) : Nat → Bytes → Option (List PS × Bytes)
  | 0, b => some ([], b)
  | n + 1, b => (p b).bind fun x => (parseN p n x.2).map fun y => (x.1 :: y.1, y.2)

def parseEntries (p : Bytes → Option (PS × Bytes)) : Nat → Bytes → Option (List (Bytes × PS) × Bytes)
  | 0, b => some ([], b)
  | n + 1, b => (p b).bind fun k =>
    match k.1 with
    | .str s => (p k.2).bind fun x => (parseEntries p n x.2).map fun y => ((s, x.1) :: y.1, y.2)
    | _ => none

def parseStruct (p : Bytes → Option (PS × Bytes)) (n : Nat) (b : Bytes) : Option (PS × Bytes) :=
  match b with
  | [] => none
  | sig :: r => (parseN p n r).map fun y => (.struct sig y.1, y.2)

def parseMarker (p : Bytes → Option (PS × Bytes)) (mk : Marker) (b : Bytes) : Option (PS × Bytes) :=
  match mk with
  | .nil => some (.null, b)
  | .bool x => some (.bool x, b)
  | .tinyInt n => some (.int n, b)
  | .int k => (takeLen k b).map fun x => (.int (toSigned k x.1), x.2)
  | .float => (takeLen 8 b).map fun x => (.float (UInt64.ofNat x.1), x.2)
  | .tinyStr n => (takeBytes n b).map fun x => (.str x.1, x.2)
  | .str k => (takeLen k b).bind fun l => (takeBytes l.1 l.2).map fun x => (.str x.1, x.2)
  | .tinyList n => (parseN p n b).map fun x => (.list x.1, x.2)
  | .list k => (takeLen k b).bind fun l => (parseN p l.1 l.2).map fun x => (.list x.1, x.2)
  | .tinyMap n => (parseEntries p n b).map fun x => (.map x.1, x.2)
  | .map k => (takeLen k b).bind fun l => (parseEntries p l.1 l.2).map fun x => (.map x.1, x.2)
  | .tinyStruct n => parseStruct p n b
  | .struct k => (takeLen k b).bind fun l => parseStruct p l.1 l.2
  | .unknown => none

def parse : Nat → Bytes → Option (PS × Bytes)
  | 0, _ => none
  | _ + 1, [] => none
  | n + 1, m :: b => parseMarker (parse n) (classify m) b

theorem takeLen_append {lb : Bytes} {k : Nat} (h : lb.length = k) (r : Bytes) : takeLen k (lb ++ r) = some (ofBE lb, r) := by
  unfold takeLen
  rw [if_neg (by simp; omega), List.take_left' h, List.drop_left' h]

theorem takeBytes_append (s r : Bytes) : takeBytes s.length (s ++ r) = some (s, r) := by
  unfold takeBytes
  rw [if_neg (by simp), List.take_left, List.drop_left]

theorem takeLen_be {lb : Bytes} {k n : Nat} (h : lb.length = k) (hb : bigEndian lb = n) (r : Bytes) :
    takeLen k (lb ++ r) = some (n, r) := by
  rw [takeLen_append h, ← hb, bigEndian_eq]

theorem parse_str {lim : Limit} {n : Nat} {s bs : Bytes} (h : StrEnc lim s bs) (rest : Bytes) :
    parse (n + 1) (bs ++ rest) = some (.str s, rest) := by
  obtain ⟨hd, hh, rfl⟩ := h
  rcases hh with ⟨hn, rfl⟩ | ⟨m, k, lb, hm, hlim, rfl, hl, hb⟩
  · rw [List.append_assoc, List.singleton_append, parse, classify_tinyStr _ hn]
    simp only [parseMarker, takeBytes_append, Option.map_some]
  · have hc : classify m = .str k := by
      simp only [strMarkers, List.mem_cons, Prod.mk.injEq, List.not_mem_nil, or_false] at hm
      rcases hm with ⟨rfl, rfl⟩ | ⟨rfl, rfl⟩ | ⟨rfl, rfl⟩ <;> rfl
    rw [List.append_assoc, List.cons_append, parse, hc]
    simp only [parseMarker, takeLen_be hl hb, Option.bind_some, takeBytes_append, Option.map_some]

mutual
theorem parse_enc (lim : Limit) : (t : PS) → (bs : Bytes) → Spec.Enc lim t bs → (n : Nat) → bs.length ≤ n → (rest : Bytes) →
    parse n (bs ++ rest) = some (t, rest)
  | t, bs, he, 0, hn, rest => by have := Enc_length_pos he; omega
  | .null, bs, he, n + 1, hn, rest => by simp only [Spec.Enc] at he; subst he; rfl
  | .bool b, bs, he, n + 1, hn, rest => by simp only [Spec.Enc] at he; subst he; cases b <;> rfl
  | .int i, bs, he, n + 1, hn, rest => by
    simp only [Spec.Enc] at he
    rcases he with ⟨h1, h2, b, rfl, hb⟩ | ⟨m, k, lb, hm, rfl, hl, hb⟩
    · have e : toSigned 1 b.toNat = i := by
        rw [twosComplement_eq _ (by simp)] at hb
        simpa [ofBE] using hb
      rw [List.singleton_append, parse, classify_tinyInt (b := b) (by omega) (by omega), e]; rfl
    · have hc : classify m = .int k ∧ 0 < k := by
        simp only [List.mem_cons, Prod.mk.injEq, List.not_mem_nil, or_false] at hm
        rcases hm with ⟨rfl, rfl⟩ | ⟨rfl, rfl⟩ | ⟨rfl, rfl⟩ | ⟨rfl, rfl⟩ <;> exact ⟨rfl, by omega⟩
      have hne : lb ≠ [] := by intro e; subst e; simp at hl; omega
      rw [twosComplement_eq _ hne, hl] at hb
      rw [List.cons_append, parse, hc.1]
      simp only [parseMarker, takeLen_append hl, Option.map_some, hb]
  | .float w, bs, he, n + 1, hn, rest => by
    simp only [Spec.Enc] at he
    obtain ⟨lb, rfl, hl, hb⟩ := he
    have hc : classify 0xC1 = .float := rfl
    rw [List.cons_append, parse, hc]
    simp only [parseMarker, takeLen_be hl hb, Option.map_some, UInt64.ofNat_toNat]
  | .str s, bs, he, n + 1, hn, rest => parse_str he rest
  | .list ts, bs, he, n + 1, hn, rest => by
    simp only [Spec.Enc] at he
    obtain ⟨h, body, hh, hb, rfl⟩ := he
    have hp := Header_length_pos hh
    have hi := parseN_enc lim ts body hb n (by simp at hn; omega) rest
    rw [List.append_assoc]
    rcases hh with ⟨h15, rfl⟩ | ⟨m, k, lb, hm, hlim, rfl, hl, hbe⟩
    · rw [List.singleton_append, parse, classify_tinyList _ h15]
      simp only [parseMarker, hi, Option.map_some]
    · have hc : classify m = .list k := by
        simp only [listMarkers, List.mem_cons, Prod.mk.injEq, List.not_mem_nil, or_false] at hm
        rcases hm with ⟨rfl, rfl⟩ | ⟨rfl, rfl⟩ | ⟨rfl, rfl⟩ <;> rfl
      rw [List.cons_append, parse, hc]
      simp only [parseMarker, takeLen_be hl hbe, Option.bind_some, hi, Option.map_some]
  | .map es, bs, he, n + 1, hn, rest => by
    simp only [Spec.Enc] at he
    obtain ⟨h, body, hh, hb, rfl⟩ := he
    have hp := Header_length_pos hh
    have hi := parseEntries_enc lim es body hb n (by simp at hn; omega) rest
    rw [List.append_assoc]
    rcases hh with ⟨h15, rfl⟩ | ⟨m, k, lb, hm, hlim, rfl, hl, hbe⟩
    · rw [List.singleton_append, parse, classify_tinyMap _ h15]
      simp only [parseMarker, hi, Option.map_some]
    · have hc : classify m = .map k := by
        simp only [mapMarkers, List.mem_cons, Prod.mk.injEq, List.not_mem_nil, or_false] at hm
        rcases hm with ⟨rfl, rfl⟩ | ⟨rfl, rfl⟩ | ⟨rfl, rfl⟩ <;> rfl
      rw [List.cons_append, parse, hc]
      simp only [parseMarker, takeLen_be hl hbe, Option.bind_some, hi, Option.map_some]
  | .struct sig fs, bs, he, n + 1, hn, rest => by
    simp only [Spec.Enc] at he
    obtain ⟨h, body, hh, hb, rfl⟩ := he
    have hp := Header_length_pos hh
    have hi := parseN_enc lim fs body hb n (by simp at hn; omega) rest
    have hs : parseStruct (parse n) fs.length (sig :: (body ++ rest)) = some (.struct sig fs, rest) := by
      simp only [parseStruct, hi, Option.map_some]
    rw [List.append_assoc]
    rcases hh with ⟨h15, rfl⟩ | ⟨m, k, lb, hm, hlim, rfl, hl, hbe⟩
    · rw [List.singleton_append, parse, classify_tinyStruct _ h15]
      exact hs
    · have hc : classify m = .struct k := by
        simp only [structMarkers, List.mem_cons, Prod.mk.injEq, List.not_mem_nil, or_false] at hm
        rcases hm with ⟨rfl, rfl⟩ | ⟨rfl, rfl⟩ <;> rfl
      rw [List.cons_append, parse, hc]
      simp only [parseMarker, takeLen_be hl hbe, Option.bind_some]
      exact hs

theorem parseN_enc (lim : Limit) : (ts : List PS) → (body : Bytes) → EncList lim ts body → (n : Nat) → body.length ≤ n → (rest : Bytes) →
    parseN (parse n) ts.length (body ++ rest) = some (ts, rest)
  | [], body, he, n, hn, rest => by simp only [EncList] at he; subst he; rfl
  | t :: ts, body, he, n, hn, rest => by
    simp only [EncList] at he
    obtain ⟨b1, b2, e1, e2, rfl⟩ := he
    simp only [List.length_append] at hn
    rw [List.length_cons, List.append_assoc]
    simp only [parseN, parse_enc lim t b1 e1 n (by omega) (b2 ++ rest), Option.bind_some,
      parseN_enc lim ts b2 e2 n (by omega) rest, Option.map_some]

theorem parseEntries_enc (lim : Limit) : (es : List (Bytes × PS)) → (body : Bytes) → EncEntries lim es body → (n : Nat) →
    body.length ≤ n → (rest : Bytes) → parseEntries (parse n) es.length (body ++ rest) = some (es, rest)
  | [], body, he, n, hn, rest => by simp only [EncEntries] at he; subst he; rfl
  | (k, t) :: es, body, he, n, hn, rest => by
    simp only [EncEntries] at he
    obtain ⟨b0, b1, b2, e0, e1, e2, rfl⟩ := he
    simp only [List.length_append] at hn
    have hp := StrEnc_length_pos e0
    have hk : parse n (b0 ++ (b1 ++ (b2 ++ rest))) = some (.str k, b1 ++ (b2 ++ rest)) := by
      match n, hn with
      | 0, hn => omega
      | n + 1, _ => exact parse_str e0 _
    rw [List.length_cons, List.append_assoc, List.append_assoc]
    simp only [parseEntries, hk, Option.bind_some, parse_enc lim t b1 e1 n (by omega) (b2 ++ rest),
      parseEntries_enc lim es b2 e2 n (by omega) rest, Option.map_some]
end

/-- Unique reading. -/
theorem Enc_unique {lim lim' : Limit} {t t' : PS} {b b' r r' : Bytes} (h : Spec.Enc lim t b) (h' : Spec.Enc lim' t' b') (e : b ++ r = b' ++ r') :
    t = t' ∧ b = b' ∧ r = r' := by
  have h1 := parse_enc lim t b h (b.length + b'.length) (by omega) r
  have h2 := parse_enc lim' t' b' h' (b.length + b'.length) (by omega) r'
  rw [e, h2] at h1
  simp only [Option.some.injEq, Prod.mk.injEq] at h1
  obtain ⟨e1, e2⟩ := h1
  subst e1; subst e2
  exact ⟨rfl, List.append_cancel_right e, rfl⟩

end Verif
