/-
C109  Waiting for the server is bounded by the timeout.
-/
import Verif.Proofs.NetSteps
import Verif.Proofs.Framing
import Verif.Props.C110
namespace Verif
namespace C109
open Spec

/-! ### Lists of operations -/

theorem bytesRead_append (a b : List NetOp) : bytesRead (a ++ b) = bytesRead a ++ bytesRead b := by
  induction a with
  | nil => rfl
  | cons op a ih =>
    match op with
    | .read _ _ (some x) => simp [bytesRead, ih]
    | .read _ _ none => simp [bytesRead, ih]
    | .write _ _ _ => simp [bytesRead, ih]
    | .dial _ _ => simp [bytesRead, ih]
    | .close _ => simp [bytesRead, ih]

theorem writes_append (a b : List NetOp) : writes (a ++ b) = writes a ++ writes b := by
  induction a with
  | nil => rfl
  | cons op a ih => cases op <;> simp [writes, ih]

theorem traceWrites_append (a b : List Ev) : traceWrites (a ++ b) = traceWrites a ++ traceWrites b := by
  induction a with
  | nil => rfl
  | cons e a ih => cases e <;> simp [traceWrites, ih]

/-- All operations succeeded, except possibly the last; the flag says that the last one did, too. -/
structure Stops (b : Bool) (ops : List NetOp) : Prop where
  all : b = true → ∀ op ∈ ops, OpOk op
  most : ∀ op ∈ ops.dropLast, OpOk op

theorem Stops.nil (b : Bool) : Stops b [] := ⟨fun _ _ h => absurd h List.not_mem_nil, fun _ h => absurd h List.not_mem_nil⟩

theorem Stops.one {b : Bool} {op : NetOp} (h : b = true → OpOk op) : Stops b [op] :=
  ⟨fun hb _ ho => by rw [List.mem_singleton.1 ho]; exact h hb, fun _ h => absurd h List.not_mem_nil⟩

theorem Stops.append {b : Bool} {l l' : List NetOp} (h : Stops true l) (h' : Stops b l') : Stops b (l ++ l') := by
  refine ⟨fun hb op ho => ?_, fun op ho => ?_⟩
  · rcases List.mem_append.1 ho with ho | ho
    · exact h.all rfl op ho
    · exact h'.all hb op ho
  · by_cases hl : l' = []
    · subst hl
      rw [List.append_nil] at ho
      exact h.most op ho
    · rw [List.dropLast_append_of_ne_nil hl] at ho
      rcases List.mem_append.1 ho with ho | ho
      · exact h.all rfl op ho
      · exact h'.most op ho

theorem Stops.weaken {b : Bool} {l : List NetOp} (h : Stops true l) : Stops b l := ⟨fun _ => h.all rfl, h.most⟩

/-- What the `Read` calls of a message do with the stream. -/
structure Reads (N : NetEnv) (b : Bool) (segs : List Bytes) (ops : List NetOp) (segs' : List Bytes) : Prop where
  stops : Stops b ops
  each : ∀ op ∈ ops, ∃ n got, op = .read (some N.timeout) n got ∧ got ≠ some []
  flat : segs.flatten = bytesRead ops ++ segs'.flatten

theorem Reads.nil (N : NetEnv) (b : Bool) (segs : List Bytes) : Reads N b segs [] segs := ⟨Stops.nil b, fun _ h => absurd h List.not_mem_nil, rfl⟩

theorem Reads.append {N : NetEnv} {b : Bool} {s s' s'' : List Bytes} {l l' : List NetOp} (h : Reads N true s l s') (h' : Reads N b s' l' s'') : Reads N b s (l ++ l') s'' :=
  ⟨h.stops.append h'.stops, fun op ho => (List.mem_append.1 ho).elim (h.each op) (h'.each op), by rw [h.flat, h'.flat, bytesRead_append, List.append_assoc]⟩

theorem Reads.last {N : NetEnv} {s s' : List Bytes} {n : Nat} (h : readOnce n s = none) (h' : s'.flatten = []) : Reads N false s [netRead N n none] s' :=
  ⟨Stops.one fun h => absurd h (by simp), fun op ho => by rw [List.mem_singleton.1 ho]; exact ⟨n, none, rfl, by simp⟩, by
    rw [readOnce_none.1 h, h']; rfl⟩

theorem Reads.cons {N : NetEnv} {b : Bool} {s s' s'' : List Bytes} {n : Nat} {got : Bytes} {l : List NetOp} (hn : 0 < n) (h : readOnce n s = some (got, s'))
    (h' : Reads N b s' l s'') : Reads N b s (netRead N n (some got) :: l) s'' := by
  obtain ⟨h1, _, h3⟩ := readOnce_some hn h
  exact Reads.append (l := [_]) ⟨Stops.one fun _ => ⟨got, rfl⟩, fun op ho => by
    rw [List.mem_singleton.1 ho]; exact ⟨n, some got, rfl, by simpa using h1⟩, by rw [← h3]; simp [bytesRead, netRead]⟩ h'

theorem readFull_reads (N : NetEnv) : (fuel n : Nat) → (segs : List Bytes) → n ≤ fuel →
    Reads N (decide ((readFull fuel n segs).1.length = n)) segs (netReadFull N fuel n segs) (readFull fuel n segs).2
  | 0, n, segs, _ => Reads.nil N _ segs
  | fuel + 1, n, segs, hf => by
    unfold netReadFull readFull
    by_cases hn : n = 0
    · rw [if_pos hn, if_pos hn]; exact Reads.nil N _ segs
    · rw [if_neg hn, if_neg hn]
      cases h : readOnce n segs with
      | none =>
        have : decide (([] : Bytes).length = n) = false := by simp; omega
        show Reads N (decide (([] : Bytes).length = n)) _ _ _
        rw [this]
        exact Reads.last h rfl
      | some p =>
        obtain ⟨got, segs'⟩ := p
        obtain ⟨h1, h2, _⟩ := readOnce_some (by omega) h
        have hp : 0 < got.length := List.length_pos_iff.2 h1
        refine Reads.cons (by omega) h ?_
        have ih := readFull_reads N fuel (n - got.length) segs' (by omega)
        have e : decide ((got ++ (readFull fuel (n - got.length) segs').1).length = n) = decide ((readFull fuel (n - got.length) segs').1.length = n - got.length) := by
          rw [List.length_append]; exact decide_eq_decide.2 (by omega)
        show Reads N (decide ((got ++ (readFull fuel (n - got.length) segs').1).length = n)) _ _ _
        rw [e]
        exact ih

/-- A result of reading from the stream is not an error. -/
def good {α : Type} : RRes α → Bool
  | .ok _ _ => true
  | .err _ _ => false

/-- The stream after reading from it. -/
def left {α : Type} : RRes α → List Bytes
  | .ok _ s => s
  | .err _ s => s

theorem readData_reads (N : NetEnv) (fin : StreamEnd) (len : Nat) : (fuel total : Nat) → (out : Bytes) → (segs : List Bytes) →
    Reads N (good (readDataLoop fin len fuel total out segs)) segs (netReadData N len fuel total segs) (left (readDataLoop fin len fuel total out segs))
  | 0, _, _, segs => Reads.nil N _ segs
  | fuel + 1, total, out, segs => by
    unfold netReadData readDataLoop
    by_cases ht : total < len
    · rw [if_pos ht, if_pos ht]
      cases h : readOnce (len - total) segs with
      | none => exact Reads.last h rfl
      | some p =>
        obtain ⟨got, segs'⟩ := p
        exact Reads.cons (by omega) h (readData_reads N fin len fuel _ _ segs')
    · rw [if_neg ht, if_neg ht]; exact Reads.nil N _ segs

theorem readMsg_reads (N : NetEnv) (fin : StreamEnd) : (fuel : Nat) → (out : Bytes) → (segs : List Bytes) →
    Reads N (good (readMsgF fin fuel out segs)) segs (netReadMsg N fin fuel segs) (left (readMsgF fin fuel out segs))
  | 0, _, segs => Reads.nil N _ segs
  | fuel + 1, out, segs => by
    have h := readFull_reads N 2 2 segs (Nat.le_refl 2)
    unfold netReadMsg readMsgF
    dsimp only
    by_cases h2 : (readFull 2 2 segs).1.length ≠ 2
    · rw [if_pos h2, if_pos h2, List.append_nil]
      have : decide ((readFull 2 2 segs).1.length = 2) = false := by simpa using h2
      rw [this] at h
      exact h
    · rw [if_neg h2, if_neg h2]
      have h2 : (readFull 2 2 segs).1.length = 2 := by omega
      rw [h2] at h
      by_cases h0 : ofBE (readFull 2 2 segs).1 = 0
      · rw [if_pos h0, if_pos h0, List.append_nil]; exact h
      · rw [if_neg h0, if_neg h0]
        refine Reads.append h ?_
        have hd := readData_reads N fin (ofBE (readFull 2 2 segs).1) (ofBE (readFull 2 2 segs).1 + 1) 0 (List.replicate (ofBE (readFull 2 2 segs).1) 0) (readFull 2 2 segs).2
        change Reads N (good (readData fin (ofBE (readFull 2 2 segs).1) (readFull 2 2 segs).2)) _ _ (left (readData fin (ofBE (readFull 2 2 segs).1) (readFull 2 2 segs).2)) at hd
        cases hr : readData fin (ofBE (readFull 2 2 segs).1) (readFull 2 2 segs).2 with
        | err e segs' => rw [hr] at hd; dsimp only; rw [List.append_nil]; exact hd
        | ok data segs' => rw [hr] at hd; exact hd.append (readMsg_reads N fin fuel _ segs')

/-! ### Calls -/

/-- The operation has the deadline of the connection, and a successful `Read` brings at least one byte. -/
def Bounded (N : NetEnv) : NetOp → Prop
  | .dial _ _ => False
  | .write d _ _ => d = some N.timeout
  | .read d _ got => d = some N.timeout ∧ got ≠ some []
  | .close _ => True

theorem worldAfter_append {σ : Type} (W : World σ) (w : σ) (a b : List Ev) : worldAfter W w (a ++ b) = worldAfter W (worldAfter W w a) b := by
  induction a generalizing w with
  | nil => rfl
  | cons e a ih => cases e <;> exact ih _

theorem delivered_append {σ : Type} (W : World σ) (w : σ) (a b : List Ev) : delivered W w (a ++ b) = delivered W w a ++ delivered W (worldAfter W w a) b := by
  induction a generalizing w with
  | nil => rfl
  | cons e a ih =>
    cases e with
    | sent ws =>
      show _ ++ delivered W _ (a ++ b) = _ ++ delivered W _ a ++ _
      rw [ih, List.append_assoc]; rfl
    | recv v => exact ih _
    | closed => exact ih _

section
variable {σ : Type} (env : Env) (W : World σ) (N : NetEnv)

/-- What a call does on the network. -/
structure Does (b : Bool) (c : Conn σ) (ops : List NetOp) (c' : Conn σ) : Prop where
  stops : Stops b ops
  each : ∀ op ∈ ops, Bounded N op
  evs : ∃ evs, c'.trace = c.trace ++ evs ∧ writes ops <+: traceWrites evs ∧ (b = true → writes ops = traceWrites evs) ∧
    c'.world = worldAfter W c.world evs ∧ c.segs.flatten ++ delivered W c.world evs = bytesRead ops ++ c'.segs.flatten

theorem Does.same (b : Bool) {c c' : Conn σ} (h1 : c'.trace = c.trace) (h2 : c'.world = c.world) (h3 : c'.segs = c.segs) : Does W N b c [] c' :=
  ⟨Stops.nil b, fun _ h => absurd h List.not_mem_nil, [], by simp [h1], List.prefix_refl _, fun _ => rfl, h2, by rw [h3]; simp [delivered, bytesRead]⟩

theorem writes_map (N : NetEnv) (ok : Bool) (ws : List Bytes) : writes (ws.map fun w => netWrite N w ok) = ws := by
  induction ws with
  | nil => rfl
  | cons w ws ih => simpa [writes, netWrite] using ih

theorem bytesRead_map (N : NetEnv) (ok : Bool) (ws : List Bytes) : bytesRead (ws.map fun w => netWrite N w ok) = [] := by
  induction ws with
  | nil => rfl
  | cons w ws ih => simpa [bytesRead, netWrite] using ih

theorem netWrites_facts (ws : List Bytes) (ok : Bool) : Stops ok (netWrites N ws ok) ∧ (∀ op ∈ netWrites N ws ok, Bounded N op) ∧
    writes (netWrites N ws ok) <+: ws ∧ (ok = true → writes (netWrites N ws ok) = ws) ∧ bytesRead (netWrites N ws ok) = [] := by
  have hall : ∀ (b : Bool) (l : List Bytes), Stops b (l.map fun w => netWrite N w true) := fun b l =>
    ⟨fun _ op ho => by obtain ⟨w, _, rfl⟩ := List.mem_map.1 ho; rfl, fun op ho => by
      obtain ⟨w, _, rfl⟩ := List.mem_map.1 (List.dropLast_subset _ ho); rfl⟩
  have hb : ∀ (b : Bool) (l : List Bytes), ∀ op ∈ l.map (fun w => netWrite N w b), Bounded N op := fun b l op ho => by
    obtain ⟨w, _, rfl⟩ := List.mem_map.1 ho; rfl
  unfold netWrites
  cases ok with
  | true =>
    rw [if_pos rfl, writes_map, bytesRead_map]
    exact ⟨hall _ _, hb _ _, List.prefix_refl _, fun _ => rfl, rfl⟩
  | false =>
    rw [if_neg (by simp)]
    dsimp only
    rw [writes_append, bytesRead_append, writes_map, bytesRead_map, writes_map, bytesRead_map]
    refine ⟨(hall true _).append ?_, fun op ho => (List.mem_append.1 ho).elim (hb _ _ op) (hb _ _ op), ?_, fun h => absurd h (by simp), rfl⟩
    · cases (ws.drop (min (N.broke ws) (ws.length - 1))).head? with
      | none => exact Stops.nil _
      | some w => exact Stops.one fun h => absurd h (by simp)
    · generalize min (N.broke ws) (ws.length - 1) = k
      cases h : (ws.drop k).head? with
      | none => simpa using List.take_prefix k ws
      | some w =>
        obtain ⟨rest, hr⟩ : ∃ rest, ws.drop k = w :: rest := by
          cases hd : ws.drop k with
          | nil => rw [hd] at h; cases h
          | cons a rest => rw [hd] at h; cases h; exact ⟨rest, rfl⟩
        exact ⟨rest, by simp only [Option.toList_some, List.append_assoc, List.singleton_append]; rw [← hr, List.take_append_drop]⟩

theorem does_prim : NPrim env W N (Does W N) where
  refl b c := Does.same W N b rfl rfl rfl
  trans := by
    rintro b c c' c'' l l' ⟨h1, h2, evs, h3, h4, h5, h6, h7⟩ ⟨g1, g2, evs', g3, g4, g5, g6, g7⟩
    refine ⟨h1.append g1, fun op ho => (List.mem_append.1 ho).elim (h2 op) (g2 op), evs ++ evs', by rw [g3, h3, List.append_assoc], ?_, fun hb => ?_, ?_, ?_⟩
    · rw [writes_append, traceWrites_append, h5 rfl]
      exact (List.prefix_append_right_inj _).2 g4
    · rw [writes_append, traceWrites_append, h5 rfl, g5 hb]
    · rw [worldAfter_append, ← h6]; exact g6
    · rw [delivered_append, ← List.append_assoc, h7, ← h6, List.append_assoc, g7, bytesRead_append, List.append_assoc]
  weaken h := ⟨h.stops.weaken, h.each, by
    obtain ⟨evs, h1, h2, _, h4⟩ := h.evs
    exact ⟨evs, h1, h2, fun h => absurd h (by simp), h4⟩⟩
  send v := by
    intro c
    unfold netSend sendMessage writeAll
    dsimp only
    obtain ⟨f1, f2, f3, f4, f5⟩ := netWrites_facts N (encodeMsg env c.proto.codec c.chunkSize v).1 (W.onSend c.world (encodeMsg env c.proto.codec c.chunkSize v).1).ok
    generalize hr : encodeMsg env c.proto.codec c.chunkSize v = r at *
    obtain ⟨ws, e⟩ := r
    dsimp only at f1 f2 f3 f4 f5 ⊢
    by_cases hw : ws = []
    · subst hw
      have hn : ∀ b, netWrites N [] b = [] := fun b => by cases b <;> simp [netWrites]
      have hops : (if c.sock = true then netWrites N [] (W.onSend c.world []).ok else []) = [] := by split <;> simp [hn]
      rw [hops]
      cases e with
      | none => exact Does.same W N _ rfl rfl rfl
      | some e => exact Does.same W N _ rfl rfl rfl
    · rw [if_neg hw]
      by_cases hs : c.sock = true
      · rw [if_pos hs, if_neg (by simp [hs])]
        have key : ∀ (b : Bool) (c' : Conn σ), (b = true → (W.onSend c.world ws).ok = true) → c' = { c with world := (W.onSend c.world ws).st, segs := c.segs ++ (W.onSend c.world ws).segs, fin := (W.onSend c.world ws).fin, trace := c.trace ++ [.sent ws] } →
            Does W N b c (netWrites N ws (W.onSend c.world ws).ok) c' := by
          rintro b c' hb rfl
          refine ⟨⟨fun h => f1.all (hb h), f1.most⟩, f2, [.sent ws], rfl, by simpa [traceWrites] using f3, fun h => by simpa [traceWrites] using f4 (hb h), rfl, ?_⟩
          rw [f5]; simp [delivered]
        cases hok : (W.onSend c.world ws).ok with
        | true =>
          rw [hok] at key
          cases e with
          | none => exact key true _ (fun _ => rfl) rfl
          | some e => exact key false _ (fun _ => rfl) rfl
        | false =>
          rw [hok] at key
          exact key false _ (fun h => by cases h) rfl
      · rw [if_neg hs, if_pos (by simpa using hs)]
        exact Does.same W N _ rfl rfl rfl
  recv := by
    intro c
    unfold netReceive receive
    dsimp only
    by_cases hs : c.sock = true
    · rw [if_pos hs, if_neg (by simp [hs])]
      have hr := readMsg_reads N c.fin (streamLen c.segs + 1) [] c.segs
      change Reads N (good (readMsg c.fin c.segs)) _ _ (left (readMsg c.fin c.segs)) at hr
      have hb : ∀ op ∈ netReadMsg N c.fin (streamLen c.segs + 1) c.segs, Bounded N op := fun op ho => by
        obtain ⟨n, got, rfl, hg⟩ := hr.each op ho
        exact ⟨rfl, hg⟩
      have hw : writes (netReadMsg N c.fin (streamLen c.segs + 1) c.segs) = [] := by
        have : ∀ l : List NetOp, (∀ op ∈ l, ∃ n got, op = .read (some N.timeout) n got ∧ got ≠ some []) → writes l = [] := by
          intro l
          induction l with
          | nil => intro _; rfl
          | cons op l ih =>
            intro h
            obtain ⟨n, got, rfl, _⟩ := h op List.mem_cons_self
            exact ih fun op ho => h op (List.mem_cons_of_mem _ ho)
        exact this _ hr.each
      have key : ∀ (b : Bool) (c' : Conn σ) (evs : List Ev), (b = true → good (readMsg c.fin c.segs) = true) → traceWrites evs = [] → worldAfter W c.world evs = c.world → delivered W c.world evs = [] →
          c' = { c with segs := left (readMsg c.fin c.segs), trace := c.trace ++ evs } → Does W N b c (netReadMsg N c.fin (streamLen c.segs + 1) c.segs) c' := by
        rintro b c' evs h1 h2 h3 h4 rfl
        refine ⟨⟨fun h => hr.stops.all (h1 h), hr.stops.most⟩, hb, evs, rfl, by rw [hw]; exact List.nil_prefix, fun _ => by rw [hw, h2], h3.symm, ?_⟩
        rw [h4, List.append_nil]; exact hr.flat
      cases hm : readMsg c.fin c.segs with
      | err e s =>
        rw [hm] at key
        exact key false _ [] (fun h => by cases h) rfl rfl rfl (by simp [left])
      | ok b s =>
        rw [hm] at key
        dsimp only
        cases decode env c.proto.codec b with
        | ok p => exact key true _ [.recv p.1] (fun _ => rfl) rfl rfl rfl rfl
        | err e => exact key false _ [] (fun _ => rfl) rfl rfl rfl (by simp [left])
        | panic => exact key false _ [] (fun _ => rfl) rfl rfl rfl (by simp [left])
        | fuel => exact key false _ [] (fun _ => rfl) rfl rfl rfl (by simp [left])
    · rw [if_neg hs, if_pos (by simpa using hs)]
      exact Does.same W N _ rfl rfl rfl
  sock := by
    intro c
    unfold netCloseSock closeSock
    dsimp only
    have key : ∀ b : Bool, (b = true → W.onClose c.world = true) → ∀ c' : Conn σ, c' = { c with sock := false, closed := true, trace := c.trace ++ [.closed] } → Does W N b c [.close (W.onClose c.world)] c' := by
      rintro b hb c' rfl
      exact ⟨Stops.one hb, fun op ho => by rw [List.mem_singleton.1 ho]; trivial, [.closed], rfl, List.prefix_refl _, fun _ => rfl, rfl, by simp [delivered, bytesRead]⟩
    cases hc : W.onClose c.world with
    | true => rw [hc] at key; exact key true (fun _ => rfl) _ rfl
    | false => rw [hc] at key; exact key false (fun h => by cases h) _ rfl
  endTx h c := Does.same W N _ rfl rfl rfl
  newTx c h := Does.same W N _ rfl rfl rfl
  chunk c n := Does.same W N _ rfl rfl rfl

/-! ### Time -/

theorem lasts_cons {op : NetOp} {ops : List NetOp} {t : Nat} (h : Lasts (op :: ops) t) : ∃ d t', CanTake op d ∧ Lasts ops t' ∧ t = d + t' := by
  cases h with
  | cons h1 h2 => exact ⟨_, _, h1, h2, rfl⟩

theorem lasts_nil {t : Nat} (h : Lasts [] t) : t = 0 := by cases h; rfl

theorem canTake_le {op : NetOp} {d : Nat} (hb : Bounded N op) (h : CanTake op d) : d ≤ N.timeout.toNat := by
  match op with
  | .dial _ _ => exact absurd hb (by simp [Bounded])
  | .write dl _ _ => cases (hb : dl = _); exact h
  | .read dl _ _ => cases hb.1; exact h
  | .close _ => exact (h : d = 0) ▸ Nat.zero_le _

/-- Operations that stop at the first failure last at most the timeout for each write and each byte read, and once more. -/
theorem lasts_le : (ops : List NetOp) → {b : Bool} → {t : Nat} → Stops b ops → (∀ op ∈ ops, Bounded N op) → Lasts ops t →
    t ≤ N.timeout.toNat * ((writes ops).length + (bytesRead ops).length + 1)
  | [], _, _, _, _, h => by rw [lasts_nil h]; exact Nat.zero_le _
  | op :: ops, b, t, hs, hb, h => by
    obtain ⟨d, t', h1, h2, rfl⟩ := lasts_cons h
    have hd := canTake_le N (hb op List.mem_cons_self) h1
    by_cases hops : ops = []
    · subst hops
      rw [lasts_nil h2, Nat.mul_add, Nat.mul_one]
      omega
    · have hok : OpOk op := by
        refine hs.most op ?_
        obtain ⟨a, l, rfl⟩ := List.exists_cons_of_ne_nil hops
        rw [List.dropLast_cons_cons]
        exact List.mem_cons_self
      have hs' : Stops b ops := ⟨fun hb' op ho => hs.all hb' op (List.mem_cons_of_mem _ ho), fun o ho => hs.most o (by
        obtain ⟨a, l, rfl⟩ := List.exists_cons_of_ne_nil hops
        rw [List.dropLast_cons_cons]
        exact List.mem_cons_of_mem _ ho)⟩
      have ih := lasts_le ops hs' (fun o ho => hb o (List.mem_cons_of_mem _ ho)) h2
      match op with
      | .dial _ _ => exact absurd (hb _ List.mem_cons_self) (by simp [Bounded])
      | .write _ _ _ =>
        simp only [writes, bytesRead, List.length_cons, Nat.mul_add, Nat.mul_one] at ih ⊢
        omega
      | .read _ _ got =>
        obtain ⟨x, rfl⟩ := hok
        have hx : x ≠ [] := fun hx => (hb _ List.mem_cons_self).2 (by rw [hx])
        obtain ⟨a, l, rfl⟩ := List.exists_cons_of_ne_nil hx
        simp only [writes, bytesRead, List.cons_append, List.length_cons, List.length_append, Nat.mul_add, Nat.mul_one] at ih ⊢
        omega
      | .close _ =>
        simp only [writes, bytesRead, CanTake] at ih h1 ⊢
        omega

end

/-! ### Opening a connection -/

section
variable {σ : Type} (env : Env) (W : World σ) (N : NetEnv)

theorem does_handshake : NSteps (Does W N) (netHandshake W N) := by
  intro c
  unfold netHandshake handshake
  dsimp only
  cases hok : (W.onSend c.world [handShake]).ok with
  | false =>
    rw [if_pos rfl, if_neg (by simp)]
    refine ⟨Stops.one (fun h => by cases h), fun op ho => (by rw [List.mem_singleton.1 ho]; rfl), [.sent [handShake]], rfl, List.prefix_refl _, fun _ => rfl, rfl, ?_⟩
    simp [delivered, bytesRead, netWrite]
  | true =>
    rw [if_neg (by simp), if_pos rfl]
    have key : ∀ (b : Bool) (c' : Conn σ) (got : Option Bytes), (b = true → got ≠ none) → got ≠ some [] → c'.trace = c.trace ++ [.sent [handShake]] → c'.world = (W.onSend c.world [handShake]).st →
        (c.segs ++ (W.onSend c.world [handShake]).segs).flatten = got.getD [] ++ c'.segs.flatten → Does W N b c [netWrite N handShake true, netRead N 4 got] c' := by
      intro b c' got h0 h1 h2 h3 h4
      refine ⟨⟨fun hb op ho => ?_, fun op ho => ?_⟩, fun op ho => ?_, [.sent [handShake]], h2, List.prefix_refl _, fun _ => rfl, h3, ?_⟩
      · rcases List.mem_cons.1 ho with rfl | ho
        · rfl
        · rw [List.mem_singleton.1 ho]
          cases got with
          | none => exact absurd rfl (h0 hb)
          | some x => exact ⟨x, rfl⟩
      · rw [List.mem_singleton.1 ho]; rfl
      · rcases List.mem_cons.1 ho with rfl | ho
        · rfl
        · rw [List.mem_singleton.1 ho]; exact ⟨rfl, h1⟩
      · rw [List.flatten_append] at h4
        cases got with
        | none => simpa [delivered, bytesRead, netWrite, netRead] using h4
        | some x => simpa [delivered, bytesRead, netWrite, netRead] using h4
    cases hr : readOnce 4 (c.segs ++ (W.onSend c.world [handShake]).segs) with
    | none =>
      refine key false _ none (fun h => by cases h) (by simp) rfl rfl ?_
      rw [readOnce_none.1 hr]; rfl
    | some x =>
      obtain ⟨got, segs'⟩ := x
      obtain ⟨h1, _, h3⟩ := readOnce_some (by omega) hr
      have hg : (some got : Option Bytes) ≠ some [] := by simpa using h1
      have h3 : (c.segs ++ (W.onSend c.world [handShake]).segs).flatten = got ++ segs'.flatten := h3.symm
      dsimp only
      split
      · exact key _ _ _ (fun _ => by simp) hg rfl rfl h3
      · split
        · exact key _ _ _ (fun _ => by simp) hg rfl rfl h3
        · exact key _ _ _ (fun _ => by simp) hg rfl rfl h3

/-- After dialling. -/
theorem does_init (fuel : Nat) (user password : Bytes) : NSteps (Does W N) (do
    let versionBytes ← NM.mapErr (fun e => e.wrap "handshake failed") (netHandshake W N)
    match getProtocol versionBytes with
    | (some p, version, _) => do
      NM.lift (CM.modify fun c => { c with proto := p, version := version, versionBytes := versionBytes })
      netSendInit env W N fuel (p.initMessage clientID (buildAuthTokenBasic user password))
    | (none, _, some e) => NM.fail e
    | (none, _, none) => NM.fail (.plain "unreachable")) := by
  have P := does_prim env W N
  refine P.bind (P.mapErr _ (does_handshake W N)) fun v => ?_
  rcases getProtocol v with ⟨_ | p, n, _ | e⟩
  · exact P.fail _
  · exact P.fail _
  · exact P.bind (fun c => Does.same W N _ rfl rfl rfl) fun _ => P.sendInit fuel _
  · exact P.bind (fun c => Does.same W N _ rfl rfl rfl) fun _ => P.sendInit fuel _

theorem create_ops (fuel : Nat) (user password : Bytes) (w : σ) : ∃ ops b c c',
    (netCreate env W N fuel user password w).2.2 = .dial (if N.useTLS ∨ N.timeout = 0 then none else some N.timeout) (W.dial w).2 :: ops ∧
    ((W.dial w).2 = false → ops = []) ∧ Does W N b c ops c' := by
  show ∃ ops b c c', (NM.bind (netDial W N) _ (Conn.fresh w)).2.2 = _ ∧ _
  unfold NM.bind netDial createConnection
  dsimp only
  cases hd : (W.dial (Conn.fresh w).world).2 with
  | false =>
    have hd' : (W.dial w).2 = false := hd
    rw [if_neg (by simp), hd']
    exact ⟨[], false, Conn.fresh w, Conn.fresh w, rfl, fun _ => rfl, Does.same W N _ rfl rfl rfl⟩
  | true =>
    have hd' : (W.dial w).2 = true := hd
    rw [if_pos rfl, hd']
    exact ⟨_, _, _, _, rfl, fun h => (by cases h), does_init env W N fuel user password { Conn.fresh w with world := (W.dial w).1, sock := true, closed := false }⟩

end
end C109

open C109 Spec

section
variable {σ : Type} (env : Env) (W : World σ) (N : NetEnv)

/-- The calls with their network operations are the calls. -/
theorem C109_same (fuel : Nat) (op : Op) (c : Conn σ) : ((netStep env W N fuel op c).1, (netStep env W N fuel op c).2.1) = step env W fuel op c :=
  congrFun (nerase_step env W N fuel op) c

theorem C109_same_create (fuel : Nat) (user password : Bytes) (w : σ) :
    ((netCreate env W N fuel user password w).1, (netCreate env W N fuel user password w).2.1) = createBoltConn env W fuel user password w :=
  congrFun (nerase_init env W N fuel user password) (Conn.fresh w)

/-- The operations are those the trace tells of: what is written is what the trace shows, if the call returns an error possibly only a part of it; and what
is read is what was left from before and what the server sends, but for what is left for later. -/
theorem C109_transcript (fuel : Nat) (op : Op) (hv : op ≠ .validateOpen) (c : Conn σ) :
    let r := netStep env W N fuel op c
    ∃ evs, r.2.1.trace = c.trace ++ evs ∧ writes r.2.2 <+: traceWrites evs ∧ ((∃ a, r.1 = .ok a) → writes r.2.2 = traceWrites evs) ∧
      c.segs.flatten ++ delivered W c.world evs = bytesRead r.2.2 ++ r.2.1.segs.flatten := by
  obtain ⟨evs, h1, h2, h3, _, h4⟩ := ((does_prim env W N).step fuel op hv c).evs
  exact ⟨evs, h1, h2, fun ⟨a, ha⟩ => h3 (by rw [ha]; rfl), h4⟩

/-- A call performs no operation after one that failed, and returns no nil error then. -/
theorem C109_stops (fuel : Nat) (op : Op) (hv : op ≠ .validateOpen) (c : Conn σ) :
    let r := netStep env W N fuel op c
    (∀ o ∈ r.2.2.dropLast, OpOk o) ∧ ((∃ a, r.1 = .ok a) → ∀ o ∈ r.2.2, OpOk o) := by
  have h := ((does_prim env W N).step fuel op hv c).stops
  exact ⟨h.most, fun ⟨a, ha⟩ => h.all (by rw [ha]; rfl)⟩

/-- Every write and every read has the timeout as its deadline. -/
theorem C109_deadline (fuel : Nat) (op : Op) (hv : op ≠ .validateOpen) (c : Conn σ) : ∀ o ∈ (netStep env W N fuel op c).2.2,
    (∃ b ok, o = .write (some N.timeout) b ok) ∨ (∃ n got, o = .read (some N.timeout) n got) ∨ ∃ ok, o = .close ok := by
  intro o ho
  have h := ((does_prim env W N).step fuel op hv c).each o ho
  match o with
  | .dial _ _ => exact absurd h (by simp [Bounded])
  | .write d b ok => cases (h : d = _); exact Or.inl ⟨b, ok, rfl⟩
  | .read d n got => cases h.1; exact Or.inr (Or.inl ⟨n, got, rfl⟩)
  | .close ok => exact Or.inr (Or.inr ⟨ok, rfl⟩)

/-- A call takes at most the timeout for each write and for each byte that arrives, and once more. -/
theorem C109_partial (fuel : Nat) (op : Op) (c : Conn σ) {t : Nat} (ht : Lasts (netStep env W N fuel op c).2.2 t) :
    t ≤ N.timeout.toNat * ((writes (netStep env W N fuel op c).2.2).length + (bytesRead (netStep env W N fuel op c).2.2).length + 1) := by
  by_cases hv : op = .validateOpen
  · subst hv
    have h0 : t = 0 := by
      have hops : (netStep env W N fuel .validateOpen c).2.2 = [] ∨ ∃ got, (netStep env W N fuel .validateOpen c).2.2 = [.read (some 0) 1 got] := by
        show (NM.bind (netValidateOpen W) _ c).2.2 = [] ∨ ∃ got, (NM.bind (netValidateOpen W) _ c).2.2 = _
        have hn : (netValidateOpen W c).2.2 = [] ∨ ∃ got, (netValidateOpen W c).2.2 = [.read (some 0) 1 got] := by
          unfold netValidateOpen
          dsimp only
          split
          · exact Or.inl rfl
          · split
            · exact Or.inr ⟨_, rfl⟩
            · exact Or.inr ⟨_, rfl⟩
        have hb : ∀ f : Bool → NM σ Unit, (∀ b c, (f b c).2.2 = []) → (NM.bind (netValidateOpen W) f c).2.2 = (netValidateOpen W c).2.2 := by
          intro f hf
          unfold NM.bind
          match netValidateOpen W c with
          | (.ok a, c', l) => dsimp only; rw [hf, List.append_nil]
          | (.err e, c', l) => rfl
          | (.panic, c', l) => rfl
          | (.fuel, c', l) => rfl
        rw [hb _ fun _ _ => rfl]
        exact hn
      rcases hops with h | ⟨got, h⟩
      · rw [h] at ht; exact lasts_nil ht
      · rw [h] at ht
        obtain ⟨d, t', h1, h2, rfl⟩ := lasts_cons ht
        rw [lasts_nil h2]
        exact Nat.le_zero.1 h1
    rw [h0]
    exact Nat.zero_le _
  · have h := (does_prim env W N).step fuel op hv c
    exact lasts_le N _ h.stops h.each ht

/-- If the server has fallen silent, a call returns within the timeout for each of its writes, and once more. -/
theorem C109_silent (fuel : Nat) (op : Op) (hv : op ≠ .validateOpen) (c : Conn σ) {t : Nat} (h0 : c.segs.flatten = [])
    (hs : ∀ w ws, (W.onSend w ws).segs.flatten = []) (ht : Lasts (netStep env W N fuel op c).2.2 t) :
    t ≤ N.timeout.toNat * ((writes (netStep env W N fuel op c).2.2).length + 1) := by
  have h := C109_partial env W N fuel op c ht
  obtain ⟨evs, _, _, _, h4⟩ := C109_transcript env W N fuel op hv c
  have hd : ∀ (evs : List Ev) (w : σ), delivered W w evs = [] := by
    intro evs
    induction evs with
    | nil => intro w; rfl
    | cons e evs ih => intro w; cases e <;> simp [delivered, ih, hs]
  rw [h0, hd] at h4
  rw [(List.append_eq_nil_iff.1 h4.symm).1] at h
  exact h

/-- Opening a connection without TLS takes, if the timeout is not zero, at most the timeout for dialling, for each write and for each byte that arrives, and once
more. -/
theorem C109_create_partial (fuel : Nat) (user password : Bytes) (w : σ) (hT : N.timeout ≠ 0) (hTLS : N.useTLS = false) {t : Nat}
    (ht : Lasts (netCreate env W N fuel user password w).2.2 t) :
    t ≤ N.timeout.toNat * (1 + (writes (netCreate env W N fuel user password w).2.2).length + (bytesRead (netCreate env W N fuel user password w).2.2).length + 1) := by
  obtain ⟨ops, b, c, c', h1, h2, h3⟩ := create_ops env W N fuel user password w
  rw [h1] at ht ⊢
  obtain ⟨d, t', g1, g2, rfl⟩ := lasts_cons ht
  rw [if_neg (by simp [hT, hTLS])] at g1
  have g1 : d ≤ N.timeout.toNat := g1
  have := lasts_le N ops h3.stops h3.each g2
  simp only [writes, bytesRead, Nat.mul_add, Nat.mul_one] at this ⊢
  omega

end

/-! ### A server that keeps a call waiting -/

namespace C109

/-- `n` chunks of one byte each, and no end of the message. -/
def drips (n : Nat) : List Bytes := List.replicate n [0x00, 0x01, 0x00]

theorem drip_reads (N : NetEnv) (fin : StreamEnd) : (n fuel : Nat) → (segs : List Bytes) → segs.flatten = (drips n).flatten → n ≤ fuel →
    n ≤ (netReadMsg N fin fuel segs).length
  | 0, _, _, _, _ => Nat.zero_le _
  | n + 1, 0, _, _, h => absurd h (by omega)
  | n + 1, fuel + 1, segs, hs, hf => by
    have hs : segs.flatten = 0x00 :: 0x01 :: 0x00 :: (drips n).flatten := hs
    obtain ⟨h1, h2⟩ := readFull_flat 2 2 segs (Nat.le_refl 2)
    have h1 : (readFull 2 2 segs).1 = [0x00, 0x01] := by rw [h1, hs]; rfl
    have h2 : (readFull 2 2 segs).2.flatten = 0x00 :: (drips n).flatten := by rw [h2, hs]; rfl
    have h3 := readData_flat fin 1 (readFull 2 2 segs).2
    rw [h2, if_pos (by simp)] at h3
    obtain ⟨segs', h3, h4⟩ := h3
    unfold netReadMsg
    rw [h1, show ofBE [0x00, 0x01] = 1 from rfl, if_neg (by decide), if_neg (by decide), h3]
    dsimp only
    have ih := drip_reads N fin n fuel segs' h4 (by omega)
    have h5 : 1 ≤ (netReadData N 1 (1 + 1) 0 (readFull 2 2 segs).2).length := by
      unfold netReadData
      rw [if_pos (by decide)]
      split <;> simp
    simp only [List.length_append]
    omega

theorem drip_fails (fin : StreamEnd) : (n fuel : Nat) → (out : Bytes) → (segs : List Bytes) → segs.flatten = (drips n).flatten → n < fuel →
    good (readMsgF fin fuel out segs) = false
  | _, 0, _, _, _, h => absurd h (by omega)
  | 0, fuel + 1, out, segs, hs, _ => by
    obtain ⟨h1, h2⟩ := readFull_flat 2 2 segs (Nat.le_refl 2)
    unfold readMsgF
    have h1 : (readFull 2 2 segs).1 = [] := by rw [h1, hs]; rfl
    dsimp only
    rw [h1, if_pos (by decide)]
    rfl
  | n + 1, fuel + 1, out, segs, hs, hf => by
    have hs : segs.flatten = 0x00 :: 0x01 :: 0x00 :: (drips n).flatten := hs
    obtain ⟨h1, h2⟩ := readFull_flat 2 2 segs (Nat.le_refl 2)
    have h1 : (readFull 2 2 segs).1 = [0x00, 0x01] := by rw [h1, hs]; rfl
    have h2 : (readFull 2 2 segs).2.flatten = 0x00 :: (drips n).flatten := by rw [h2, hs]; rfl
    have h3 := readData_flat fin 1 (readFull 2 2 segs).2
    rw [h2, if_pos (by simp)] at h3
    obtain ⟨segs', h3, h4⟩ := h3
    unfold readMsgF
    dsimp only
    rw [h1, show ofBE [0x00, 0x01] = 1 from rfl, if_neg (by decide), if_neg (by decide), h3]
    dsimp only
    exact drip_fails fin n fuel _ segs' h4 (by omega)

/-- Each operation can take the whole timeout. -/
theorem lasts_all (N : NetEnv) : (ops : List NetOp) → (∀ op ∈ ops, (∃ n got, op = netRead N n got) ∨ ∃ b ok, op = netWrite N b ok) → Lasts ops (N.timeout.toNat * ops.length)
  | [], _ => Lasts.nil
  | op :: ops, h => by
    have ih := lasts_all N ops fun o ho => h o (List.mem_cons_of_mem _ ho)
    have h1 : CanTake op N.timeout.toNat := by
      rcases h op List.mem_cons_self with ⟨n, got, rfl⟩ | ⟨b, ok, rfl⟩
      · exact Nat.le_refl _
      · exact Nat.le_refl _
    have := Lasts.cons h1 ih
    rwa [show N.timeout.toNat * (op :: ops).length = N.timeout.toNat + N.timeout.toNat * ops.length by
      rw [List.length_cons, Nat.mul_add, Nat.mul_one, Nat.add_comm]]

theorem nbind_eq {σ α β : Type} {m : NM σ α} {f : α → NM σ β} {c c' : Conn σ} {a : α} {l : List NetOp} (h : m c = (.ok a, c', l)) :
    (m >>= f) c = ((f a c').1, (f a c').2.1, l ++ (f a c').2.2) := by
  show NM.bind m f c = _
  unfold NM.bind
  rw [h]

theorem nbind_bad {σ α β : Type} {m : NM σ α} {f : α → NM σ β} {c : Conn σ} (hr : (m c).1.good = false) :
    ((m >>= f) c).2.2 = (m c).2.2 ∧ ((m >>= f) c).1.good = false := by
  show (NM.bind m f c).2.2 = _ ∧ (NM.bind m f c).1.good = _
  unfold NM.bind
  match h : m c with
  | (.ok a, c', l) => rw [h] at hr; cases hr
  | (.err e, c', l) => exact ⟨rfl, rfl⟩
  | (.panic, c', l) => exact ⟨rfl, rfl⟩
  | (.fuel, c', l) => exact ⟨rfl, rfl⟩

/-- The messages that `Begin` sends in version 1. -/
def runBegin : Val := newRunMessage (ascii "BEGIN") []
def pullAll : Val := Proto.v1.pullAllMessage

theorem send_ops (N : NetEnv) {c : Conn (List (List Bytes))} (v : Val) (hs : c.sock = true) (he : (encodeMsg env0 c.proto.codec c.chunkSize v).2 = none) :
    netSend env0 scripted N v c = (.ok (), c.sent env0 scripted v, netWrites N (encodeMsg env0 c.proto.codec c.chunkSize v).1 true) := by
  have hok : ∀ (w : List (List Bytes)) (ws : List Bytes), (scripted.onSend w ws).ok = true := fun w ws => by cases w <;> rfl
  unfold netSend
  dsimp only
  rw [sendMessage_good env0 scripted hs he (hok _ _), if_pos hs, hok]

theorem drip_begin (N : NetEnv) (n : Nat) {c : Conn (List (List Bytes))} (hp : c.proto = .v1) (hc : c.closed = false) (hs : c.sock = true) (hx : c.cur = none)
    (hk : c.chunkSize = 65535) (hg : c.segs.flatten = []) (hw : c.world = [drips n]) :
    ∃ fin fuel segs, segs.flatten = (drips n).flatten ∧ n ≤ fuel ∧ (netStep env0 scripted N 3 (.begin_ []) c).2.2 =
      netWrites N (encodeMsg env0 .v1 65535 runBegin).1 true ++ (netWrites N (encodeMsg env0 .v1 65535 pullAll).1 true ++ netReadMsg N fin fuel segs) := by
  have e1 : (encodeMsg env0 .v1 65535 runBegin).2 = none := by decide +kernel
  have e2 : (encodeMsg env0 .v1 65535 pullAll).2 = none := by decide +kernel
  have s1 := send_ops N runBegin hs (by rw [hp, hk]; exact e1)
  have s2 := send_ops N (c := c.sent env0 scripted runBegin) pullAll hs (by show (encodeMsg env0 c.proto.codec c.chunkSize _).2 = none; rw [hp, hk]; exact e2)
  rw [hp, hk] at s1
  rw [show (c.sent env0 scripted runBegin).proto = .v1 from hp, show (c.sent env0 scripted runBegin).chunkSize = 65535 from hk] at s2
  obtain ⟨c1, hc1⟩ : ∃ c1, c1 = c.sent env0 scripted runBegin := ⟨_, rfl⟩
  obtain ⟨c2, hc2⟩ : ∃ c2, c2 = c1.sent env0 scripted pullAll := ⟨_, rfl⟩
  rw [← hc1] at s1 s2
  rw [← hc2] at s2
  have hp1 : c1.proto = .v1 := by rw [hc1]; exact hp
  have hs2 : c2.sock = true := by rw [hc2, hc1]; exact hs
  have hg2 : c2.segs.flatten = (drips n).flatten := by
    have h1 : c1.world = [] := by rw [hc1]; show (scripted.onSend c.world _).st = _; rw [hw]; rfl
    have h2 : c2.segs = c1.segs ++ [] := by rw [hc2]; show c1.segs ++ (scripted.onSend c1.world _).segs = _; rw [h1]; rfl
    have h3 : c1.segs = c.segs ++ drips n := by rw [hc1]; show c.segs ++ (scripted.onSend c.world _).segs = _; rw [hw]; rfl
    rw [h2, List.append_nil, h3, List.flatten_append, hg]; rfl
  have hn : n < streamLen c2.segs + 1 := by
    rw [streamLen_eq, hg2]
    have : (drips n).flatten.length = 3 * n := by simp [drips, List.length_flatten]; omega
    omega
  have hr : (netReceive env0 N c2).2.2 = netReadMsg N c2.fin (streamLen c2.segs + 1) c2.segs ∧ (netReceive env0 N c2).1.good = false := by
    have hf := drip_fails c2.fin n (streamLen c2.segs + 1) [] c2.segs hg2 hn
    change good (readMsg c2.fin c2.segs) = false at hf
    unfold netReceive receive
    dsimp only
    rw [if_pos hs2, if_neg (by simp [hs2])]
    cases hm : readMsg c2.fin c2.segs with
    | ok b s => rw [hm] at hf; cases hf
    | err e s => exact ⟨rfl, rfl⟩
  refine ⟨c2.fin, streamLen c2.segs + 1, c2.segs, hg2, by omega, ?_⟩
  rw [← hr.1]
  have hcons := nbind_bad (m := netReceive env0 N) (f := fun v => match asFailure v with
    | some md =>
      NM.bind (NM.mapErr (fun _ => (GoErr.failure md).wrap "reset failed") (netReset env0 scripted N 3)) fun _ =>
        NM.fail ((GoErr.failure md).wrap "Neo4J reported a failure for the runQuery")
    | none => Pure.pure v) (c := c2) hr.2
  change (netConsume env0 scripted N 3 c2).2.2 = _ ∧ (netConsume env0 scripted N 3 c2).1.good = false at hcons
  have hx1 : ∀ what, (netTxExchange env0 scripted N (netConsume env0 scripted N 3) runBegin what c).2.2 =
      netWrites N (encodeMsg env0 .v1 65535 runBegin).1 true ++ (netWrites N (encodeMsg env0 .v1 65535 pullAll).1 true ++ (netReceive env0 N c2).2.2) ∧
      (netTxExchange env0 scripted N (netConsume env0 scripted N 3) runBegin what c).1.good = false := by
    intro what
    have h0 : isTxMsg runBegin = false := by decide
    unfold netTxExchange
    have hget : ∀ c' : Conn (List (List Bytes)), (NM.get : NM _ _) c' = (.ok c', c', []) := fun _ => rfl
    have s2' : netSend env0 scripted N c1.proto.pullAllMessage c1 = (.ok (), c2, netWrites N (encodeMsg env0 .v1 65535 pullAll).1 true) := by rw [hp1]; exact s2
    rw [h0, nbind_eq s1, if_neg (by simp), nbind_eq (hget c1), nbind_eq s2']
    dsimp only
    rw [(nbind_bad hcons.2).1, (nbind_bad hcons.2).2, hcons.1]
    exact ⟨rfl, rfl⟩
  have hget : ∀ c' : Conn (List (List Bytes)), (NM.get : NM _ _) c' = (.ok c', c', []) := fun _ => rfl
  have hb : (netBegin env0 scripted N 3 [] c).2.2 = netWrites N (encodeMsg env0 .v1 65535 runBegin).1 true ++ (netWrites N (encodeMsg env0 .v1 65535 pullAll).1 true ++ (netReceive env0 N c2).2.2) ∧
      (netBegin env0 scripted N 3 [] c).1.good = false := by
    unfold netBegin
    have ht : c.proto.txBeginMessage [] c.mode = runBegin := by rw [hp]; rfl
    rw [nbind_eq (hget c), if_neg (by simp [hx]), nbind_eq (hget c), if_neg (by simp [hc]), nbind_eq (hget c), ht]
    dsimp only
    rw [(nbind_bad (hx1 _).2).1, (nbind_bad (hx1 _).2).2, (hx1 _).1]
    exact ⟨rfl, rfl⟩
  exact (nbind_bad hb.2).1.trans hb.1

theorem writes_reads {N : NetEnv} : (l : List NetOp) → (∀ op ∈ l, ∃ n got, op = netRead N n got) → writes l = []
  | [], _ => rfl
  | op :: l, h => by
    obtain ⟨n, got, rfl⟩ := h op List.mem_cons_self
    exact writes_reads l fun op ho => h op (List.mem_cons_of_mem _ ho)

end C109

open C109

/-- C109: how long a call takes is bounded by the timeout and by the number of its writes. -/
def C109_statement : Prop := ∃ k, ∀ (σ : Type) (env : Env) (W : World σ) (N : NetEnv) (fuel : Nat) (c : Conn σ) (op : Op) (t : Nat),
  InUse env W c → Lasts (netStep env W N fuel op c).2.2 t → t ≤ N.timeout.toNat * (k * ((writes (netStep env W N fuel op c).2.2).length + 1))

/-- It is not: the timeout starts anew with every `Read`, so a server that sends byte after byte keeps `Begin` waiting for as long as it likes. -/
theorem C109_refuted : ¬ C109_statement := by
  rintro ⟨k, h⟩
  obtain ⟨w, hw⟩ : ∃ w, w = (encodeMsg env0 .v1 65535 runBegin).1.length + (encodeMsg env0 .v1 65535 pullAll).1.length := ⟨_, rfl⟩
  obtain ⟨n, hn⟩ : ∃ n, n = k * (w + 1) + 1 := ⟨_, rfl⟩
  obtain ⟨c, h1, h2⟩ := C110_partial env0 scripted 3 (by decide) (by decide) (accepts_scripted (n := 1) (p := .v1) ⟨by decide, by decide, rfl⟩ [0x75] [0x70] [[0, 0, 0, 1]] rfl [drips n])
    (more' := []) rfl
  have hin : InUse env0 scripted c := ⟨3, [0x75], [0x70], _, c, [], h1, rfl⟩
  obtain ⟨ws, _, _, _, _, _, hworld, _⟩ := h2.events
  obtain ⟨fin, fuel, segs, g1, g2, g3⟩ := drip_begin ⟨1, false, fun _ => 0⟩ n h2.proto h2.open_ h2.sock h2.idle h2.chunk h2.unread hworld
  have hr := (readMsg_reads ⟨1, false, fun _ => 0⟩ fin fuel [] segs).each
  have hr : ∀ op ∈ netReadMsg ⟨1, false, fun _ => 0⟩ fin fuel segs, ∃ m got, op = netRead ⟨1, false, fun _ => 0⟩ m got := fun op ho => by
    obtain ⟨m, got, rfl, _⟩ := hr op ho
    exact ⟨m, got, rfl⟩
  have hwr : ∀ (ws : List Bytes), ∀ op ∈ netWrites ⟨1, false, fun _ => 0⟩ ws true, ∃ b ok, op = netWrite ⟨1, false, fun _ => 0⟩ b ok := fun ws op ho => by
    unfold netWrites at ho
    rw [if_pos rfl] at ho
    obtain ⟨b, _, rfl⟩ := List.mem_map.1 ho
    exact ⟨b, true, rfl⟩
  have hl := lasts_all ⟨1, false, fun _ => 0⟩ (netStep env0 scripted ⟨1, false, fun _ => 0⟩ 3 (.begin_ []) c).2.2 (by
    rw [g3]
    intro op ho
    rcases List.mem_append.1 ho with ho | ho
    · exact Or.inr (hwr _ op ho)
    · rcases List.mem_append.1 ho with ho | ho
      · exact Or.inr (hwr _ op ho)
      · exact Or.inl (hr op ho))
  have hle := h _ env0 scripted ⟨1, false, fun _ => 0⟩ 3 c (.begin_ []) _ hin hl
  have hlen := drip_reads ⟨1, false, fun _ => 0⟩ fin n fuel segs g1 g2
  have hws : (writes (netStep env0 scripted ⟨1, false, fun _ => 0⟩ 3 (.begin_ []) c).2.2).length = w := by
    have f1 := (netWrites_facts ⟨1, false, fun _ => 0⟩ (encodeMsg env0 .v1 65535 runBegin).1 true).2.2.2.1 rfl
    have f2 := (netWrites_facts ⟨1, false, fun _ => 0⟩ (encodeMsg env0 .v1 65535 pullAll).1 true).2.2.2.1 rfl
    rw [g3, writes_append, writes_append, f1, f2, writes_reads _ hr, List.append_nil, List.length_append, hw]
  rw [hws, g3] at hle
  simp only [List.length_append, show ((1 : Int).toNat) = 1 from rfl, Nat.one_mul] at hle
  omega

/-- An environment with a timeout of 5. -/
def net5 : NetEnv := ⟨5, false, fun _ => 0⟩

/-- A server that answers at once: six writes and six reads. -/
example : let r := netStep env0 scripted net5 3 (.exec [0x78] [] []) (opened (sOpen1 ++ [sSuccess, sSuccess])).2
    r.1.kind = 0 ∧ (writes r.2.2).length = 6 ∧ bytesRead r.2.2 = sSuccess.flatten ++ sSuccess.flatten ∧ r.2.2.length = 12 ∧
      r.2.2.drop 9 = [.read (some 5) 2 (some [0, 3]), .read (some 5) 3 (some [0xB1, 0x70, 0xA0]), .read (some 5) 2 (some [0, 0])] := by decide +kernel

/-- A server that falls silent within a chunk: the third read fails, and the call returns an error. -/
example : let r := netStep env0 scripted net5 3 (.exec [0x78] [] []) (opened (sOpen1 ++ [[[0, 3], [0xB1]]])).2
    r.1.kind = 1 ∧ r.2.2.drop 6 = [.read (some 5) 2 (some [0, 3]), .read (some 5) 3 (some [0xB1]), .read (some 5) 2 none] := by decide +kernel

/-- Opening a connection: dialling, four writes and four reads. -/
example : let r := netCreate env0 scripted net5 3 [0x75] [0x70] sOpen1
    r.1.kind = 0 ∧ r.2.2.length = 9 ∧ r.2.2.take 1 = [.dial (some 5) true] ∧ (writes r.2.2).length = 4 := by decide +kernel

end Verif
