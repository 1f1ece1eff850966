/-
C68  Returned connections carry no transaction to the next borrower: the routing pool.
-/
import Verif.Proofs.PoolLive
import Verif.Props.C59
import Verif.Props.C36
import Verif.Props.C74
import Verif.Spec.Scripted
import Verif.Spec.DriverPool
namespace Verif
open Spec

section
variable {σ : Type} (env : Env) (W : World σ) (semi : Bool) (fuel : Nat) (net : Net σ) (ids : Nat → Bytes)

/-- `s` is reached in some history of a routing pool and its users. -/
def Spec.LiveReached (ms : List LMove) (start s : PSys (Live σ)) : Prop :=
  ∃ connStr size userPart tlsPart pool, openRoutingPool (liveWorld env W semi fuel net ids) connStr size userPart tlsPart ⟨fun _ => none, 0, 0⟩ = .ok (.ok (), pool) ∧
    start = PSys.fresh pool ∧ s = start.lives env W semi fuel net ids ms

/-- In the history `ms` users call `Reclaim` only for connections without an open transaction. -/
def Spec.Considerate (s : PSys (Live σ)) : List LMove → Prop
  | [] => True
  | m :: ms => (∀ r, m = .pool (.call (.reclaim r)) → ∀ c, s.pool.world.conns r.ref = some c → ∀ h, ¬ c.isOpen h) ∧ Considerate (s.live env W semi fuel net ids m) ms

/-- The next move returns connection `r` to a borrower. -/
def Spec.Lends (s : PSys (Live σ)) (m : LMove) (r : ConnRef) : Prop :=
  ∃ w, (s.live env W semi fuel net ids m).returned = s.returned ++ [(.borrow w, .ok (some r))]

variable {env W semi fuel net ids}

/-- The invariant of a pool whose users are considerate. -/
structure LiveInv (s : PSys (Live σ)) : Prop where
  grow : CallsGrow s
  acts : ∀ e ∈ s.calls, OfActs (liveWorld env W semi fuel net ids) e.2
  ok : LiveOK (s.lent.map (·.ref)) s.pool

theorem live_grows {s : PSys (Live σ)} (h : CallsGrow s) (m : LMove) :
    CallsGrow (s.live env W semi fuel net ids m) ∧ Grows s.pool (s.live env W semi fuel net ids m).pool := by
  cases m with
  | pool m => exact move_grows _ fuel h m
  | user r op =>
    unfold PSys.live
    dsimp only
    split
    · split
      · exact ⟨h, Grows.refl _⟩
      · exact ⟨h, ⟨⟨[], by simp⟩, rfl, .inl fun _ => rfl⟩⟩
    · exact ⟨h, Grows.refl _⟩

theorem lives_grows : ∀ (ms : List LMove) {s : PSys (Live σ)}, CallsGrow s → CallsGrow (s.lives env W semi fuel net ids ms) ∧ Grows s.pool (s.lives env W semi fuel net ids ms).pool
  | [], _, h => ⟨h, Grows.refl _⟩
  | m :: ms, s, h => by
    obtain ⟨h1, h2⟩ := live_grows (env := env) (W := W) (semi := semi) (fuel := fuel) (net := net) (ids := ids) h m
    obtain ⟨h3, h4⟩ := lives_grows ms h1
    exact ⟨h3, h2.trans h4⟩

theorem live_inv {s : PSys (Live σ)} (hs : SysInv true s) (h : LiveInv (env := env) (W := W) (semi := semi) (fuel := fuel) (net := net) (ids := ids) s) (m : LMove)
    (hc : ∀ r, m = .pool (.call (.reclaim r)) → ∀ c, s.pool.world.conns r.ref = some c → ∀ h, ¬ c.isOpen h)
    (hd : Distinct (s.live env W semi fuel net ids m).pool) :
    SysInv true (s.live env W semi fuel net ids m) ∧ LiveInv (env := env) (W := W) (semi := semi) (fuel := fuel) (net := net) (ids := ids) (s.live env W semi fuel net ids m) := by
  have hg := live_grows (env := env) (W := W) (semi := semi) (fuel := fuel) (net := net) (ids := ids) h.grow m
  cases m with
  | pool m =>
    have h1 := move_inv (W := liveWorld env W semi fuel net ids) fuel h.grow m (.inl rfl) hd hs
    have h2 := moves_of_acts (W := liveWorld env W semi fuel net ids) (P := LiveOK (s.lent.map (·.ref))) (liveOK_acts _) fuel [m] s h.ok h.acts
    refine ⟨h1, hg.1, h2.2, ?_⟩
    have h3 : LiveOK (s.lent.map (·.ref)) (s.move (liveWorld env W semi fuel net ids) fuel m).pool := h2.1
    show LiveOK ((s.move (liveWorld env W semi fuel net ids) fuel m).lent.map (·.ref)) (s.move (liveWorld env W semi fuel net ids) fuel m).pool
    have mono : ∀ L, (∀ r ∈ s.lent.map (·.ref), r ∈ L) → LiveOK L (s.move (liveWorld env W semi fuel net ids) fuel m).pool :=
      fun L hL => ⟨fun r c hc => ⟨(h3.tx r c hc).1, fun hr => (h3.tx r c hc).2 fun hm => hr (hL r hm)⟩, h3.exist⟩
    clear h1 h2 hg hd
    match m, hc, h3, mono with
    | .call (.reclaim r), hc, h3, mono =>
      clear mono
      simp only [PSys.move] at h3 ⊢
      split
      · rename_i hm
        rw [if_pos hm] at h3
        refine ⟨fun r' c hc' => ⟨(h3.tx r' c hc').1, fun hr => ?_⟩, h3.exist⟩
        by_cases heq : r' ∈ s.lent.map (·.ref)
        · obtain ⟨y, hy, rfl⟩ := List.mem_map.1 heq
          by_cases hyr : y = r
          · subst hyr
            have hno := hc y rfl c hc'
            cases hcur : c.cur with
            | none => rfl
            | some k =>
              exact absurd (((h3.tx _ c hc').1.open_iff k).mpr hcur) (hno k)
          · exact absurd (List.mem_map.2 ⟨y, (List.mem_erase_of_ne hyr).2 hy, rfl⟩) hr
        · exact (h3.tx r' c hc').2 heq
      · rename_i hm
        rw [if_neg hm] at h3
        exact h3
    | .call (.borrow w), _, h3, _ => exact h3
    | .call .start, _, h3, _ => exact h3
    | .call .stop, _, h3, _ => exact h3
    | .call .refresh, _, h3, _ => exact h3
    | .step k, _, _, mono =>
      refine mono _ fun r hr => ?_
      simp only [PSys.move]
      split
      · exact hr
      · rw [List.map_append]; exact List.mem_append.2 (.inl hr)
      · split <;> exact hr
  | user r op =>
    revert hg hd
    unfold PSys.live
    dsimp only
    intro hd hg
    split
    · rename_i hl
      cases hcn : s.pool.world.conns r with
      | none => exact ⟨hs, h⟩
      | some c =>
        refine ⟨hs.outside _, h.grow, h.acts, ?_⟩
        refine h.ok.put (Keeps.step env W fuel op c (h.ok.tx r c hcn).1) (fun hr => ?_) rfl fun _ _ _ _ hm => .inl hm
        obtain ⟨y, hy, he⟩ := List.any_eq_true.1 hl
        exact absurd (List.mem_map.2 ⟨y, hy, by simpa using he⟩) hr
    · exact ⟨hs, h⟩

theorem lives_inv : ∀ (ms : List LMove) {s : PSys (Live σ)}, SysInv true s → LiveInv (env := env) (W := W) (semi := semi) (fuel := fuel) (net := net) (ids := ids) s →
    Considerate env W semi fuel net ids s ms → Distinct (s.lives env W semi fuel net ids ms).pool →
    SysInv true (s.lives env W semi fuel net ids ms) ∧ LiveInv (env := env) (W := W) (semi := semi) (fuel := fuel) (net := net) (ids := ids) (s.lives env W semi fuel net ids ms)
  | [], _, hs, h, _, _ => ⟨hs, h⟩
  | m :: ms, s, hs, h, hc, hd => by
    have hg := live_grows (env := env) (W := W) (semi := semi) (fuel := fuel) (net := net) (ids := ids) h.grow m
    obtain ⟨h1, h2⟩ := live_inv hs h m hc.1 ((lives_grows ms hg.1).2.distinct hd)
    exact lives_inv ms h1 h2 hc.2 hd

/-- A connection that is lent was created for that, and has no transaction. -/
theorem routing_lent {ms : List LMove} {start s : PSys (Live σ)} (hr : LiveReached env W semi fuel net ids ms start s) (hc : Considerate env W semi fuel net ids start ms)
    (hid : IdsDiffer s.pool.log) {m : LMove} {r : ConnRef} {w : Bool} (hl : (s.live env W semi fuel net ids m).returned = s.returned ++ [(.borrow w, .ok (some r))]) :
    ∃ c str, s.pool.world.conns r.ref = some c ∧ c.core.Inv ∧ c.cur = none ∧ .created r.ref r.id str w ∈ s.pool.log := by
  obtain ⟨connStr, size, userPart, tlsPart, pool, ho, rfl, rfl⟩ := hr
  have hd := (idsDiffer_iff _).1 hid
  have hg : CallsGrow (PSys.fresh pool) := fun _ h => absurd h List.not_mem_nil
  obtain ⟨hi, _, _⟩ := open_inv (st := true) (liveWorld env W semi fuel net ids) ho ((lives_grows ms hg).2.distinct hd)
  have hok : LiveOK [] pool := by
    unfold openRoutingPool at ho
    cases hn : newRoutingPool connStr size userPart tlsPart (⟨fun _ => none, 0, 0⟩ : Live σ) with
    | error e => rw [hn] at ho; cases ho
    | ok s₀ =>
      rw [hn] at ho
      simp only [Except.ok.injEq] at ho
      have h0 : LiveOK [] s₀ := by
        unfold newRoutingPool at hn
        split at hn
        · cases hn
        · split at hn
          · cases hn
          · simp only [Except.ok.injEq] at hn
            subst hn
            exact ⟨fun r c h => (by cases h), fun _ _ _ _ h => absurd h List.not_mem_nil⟩
      have := run_of_acts (W := liveWorld env W semi fuel net ids) (liveOK_acts []) acts_start h0
      rw [ho] at this
      exact this
  obtain ⟨h1, h2⟩ := lives_inv ms hi ⟨hg, fun _ h => absurd h List.not_mem_nil, hok⟩ hc hd
  generalize (PSys.fresh pool).lives env W semi fuel net ids ms = s at h1 h2 hl hd
  have no : ∀ {x : PReq × CRes PRet}, s.returned = s.returned ++ [x] → False := fun h => by
    have := congrArg List.length h
    simp at this
  match m with
  | .user r' op =>
    unfold PSys.live at hl
    dsimp only at hl
    split at hl
    · split at hl <;> exact (no hl).elim
    · exact (no hl).elim
  | .pool (.call (.reclaim r')) =>
    simp only [PSys.live, PSys.move] at hl
    split at hl <;> exact (no hl).elim
  | .pool (.call (.borrow w)) => exact (no hl).elim
  | .pool (.call .start) => exact (no hl).elim
  | .pool (.call .stop) => exact (no hl).elim
  | .pool (.call .refresh) => exact (no hl).elim
  | .pool (.step k) =>
    -- The move is the return of a call of `Borrow…`; after it the connection is lent, and was not before.
    have hpool : (s.live env W semi fuel net ids (.pool (.step k))).pool = s.pool ∧ (s.live env W semi fuel net ids (.pool (.step k))).lent = s.lent ++ [r] := by
      simp only [PSys.live, PSys.move] at hl ⊢
      split at hl
      · exact (no hl).elim
      · rename_i rq res hk
        simp only [List.append_cancel_left_eq, List.cons.injEq, Prod.mk.injEq, and_true] at hl
        rw [hl.2]
        exact ⟨rfl, rfl⟩
      · split at hl <;> exact (no hl).elim
    have h3 := (live_inv h1 h2 (.pool (.step k)) (fun r h => by cases h) (by rw [hpool.1]; exact hd)).1
    obtain ⟨xs, q, gs, hx, hnd, hb, hled, hu⟩ := lent_inv h3
    have hcr := h3.returned w r (by rw [hl]; simp)
    rw [hpool.1] at hcr
    obtain ⟨str, hcr⟩ := hcr
    have hsome := h2.ok.exist _ _ _ _ hcr
    cases hcn : s.pool.world.conns r.ref with
    | none => rw [hcn] at hsome; cases hsome
    | some c =>
      have hnd' : ((s.lent ++ [r]).map (·.ref)).Nodup := by
        rw [← hpool.2, ← hx, List.map_map]
        exact hnd
      rw [List.map_append, List.nodup_append] at hnd'
      have hnot : r.ref ∉ s.lent.map (·.ref) := fun hm => hnd'.2.2 _ hm _ (by simp) rfl
      exact ⟨c, str, rfl, (h2.ok.tx _ c hcn).1, (h2.ok.tx _ c hcn).2 hnot, hcr⟩

/-- C68, the routing pool: if users end their transactions before they return a connection, every connection that is lent exists and has no open transaction.
What is missing for the full statement: transactions that users leave open (`C68_refuted`). -/
theorem C68_routing_partial {ms : List LMove} {start s : PSys (Live σ)} (hr : LiveReached env W semi fuel net ids ms start s) (hc : Considerate env W semi fuel net ids start ms)
    (hid : IdsDiffer s.pool.log) {m : LMove} {r : ConnRef} (hl : Lends env W semi fuel net ids s m r) :
    ∃ c, s.pool.world.conns r.ref = some c ∧ ∀ h, ¬ c.isOpen h := by
  obtain ⟨w, hl⟩ := hl
  obtain ⟨c, _, hcn, hi, hcur, _⟩ := routing_lent hr hc hid hl
  refine ⟨c, hcn, fun h hopen => ?_⟩
  have := (hi.open_iff h).mp hopen
  rw [show Core.cur _ = none from hcur] at this
  cases this

end

/-! ### A user that forgets a transaction -/

namespace C68

/-- RECORD [id, [address], {system: role}, null] in a chunk. -/
def row (id address role : String) : Bytes :=
  let b := [0xB1, 0x71, 0x94, 0x81] ++ ascii id ++ [0x91, 0x88] ++ ascii address ++ [0xA1, 0x86] ++ ascii "system" ++ [UInt8.ofNat (0x80 + role.length)] ++ ascii role ++ [0xC0]
  [0x00, UInt8.ofNat b.length] ++ b ++ [0x00, 0x00]

/-- The first connection is asked for the cluster overview; all others answer with SUCCESS. -/
def net : Net (List (List Bytes)) := noFiles fun n _ =>
  match n with
  | 0 => sOpen4 ++ [sSuccess, [row "1" "bolt://a" "LEADER", row "2" "bolt://b" "FOLLOWER"] ++ sSuccess]
  | _ => sOpen4 ++ List.replicate 6 sSuccess

/-- The ids of the connections. -/
def ids : Nat → Bytes := fun n => [UInt8.ofNat n]

/-- One user borrows a connection, does what `ops` says, and returns it; then another one borrows a connection, and has it after the next move. -/
def visit (ops : List Op) : List LMove :=
  [.pool (.call (.borrow true))] ++ List.replicate 8 (.pool (.step 0)) ++ ops.map (.user 1) ++ [.pool (.call (.reclaim ⟨1, ascii "1-" ++ ids 0⟩))] ++
    List.replicate 9 (.pool (.step 0)) ++ [.pool (.call (.borrow true))] ++ List.replicate 7 (.pool (.step 0))

/-- The start of the pool. -/
def opened : Option (RPool (Live (List (List Bytes)))) :=
  match openRoutingPool (liveWorld env0 scripted false 3 net ids) (ascii "bolt+routing://u:p@a") 2 (ascii "u:p") [] ⟨fun _ => none, 0, 0⟩ with
  | .ok (.ok (), pool) => some pool
  | _ => none

/-- The state after the history. -/
def final (ops : List Op) : Option (PSys (Live (List (List Bytes)))) := opened.map fun pool => (PSys.fresh pool).lives env0 scripted false 3 net ids (visit ops)

theorem reached {ops : List Op} {s : PSys (Live (List (List Bytes)))} (h : final ops = some s) :
    ∃ pool, opened = some pool ∧ LiveReached env0 scripted false 3 net ids (visit ops) (PSys.fresh pool) s := by
  unfold final at h
  cases ho : opened with
  | none => rw [ho] at h; cases h
  | some pool =>
    rw [ho] at h
    simp only [Option.map_some, Option.some.injEq] at h
    refine ⟨pool, rfl, ascii "bolt+routing://u:p@a", 2, ascii "u:p", [], pool, ?_, rfl, h.symm⟩
    · unfold opened at ho
      generalize openRoutingPool (liveWorld env0 scripted false 3 net ids) (ascii "bolt+routing://u:p@a") 2 (ascii "u:p") [] ⟨fun _ => none, 0, 0⟩ = o at ho ⊢
      match o, ho with
      | .ok (.ok (), pool'), ho => cases ho; rfl

/-- The connection a borrower is about to be given, when there is no other call. -/
def next (s : PSys (Live (List (List Bytes)))) : Option ConnRef :=
  match s.calls with
  | [(.borrow _, .done (.ok r))] => r
  | _ => none

theorem lends {s : PSys (Live (List (List Bytes)))} {r : ConnRef} (h : next s = some r) : Lends env0 scripted false 3 net ids s (.pool (.step 0)) r := by
  unfold next at h
  split at h
  · rename_i w r' hc
    subst h
    refine ⟨w, ?_⟩
    simp only [PSys.live, PSys.move, hc, List.getElem?_cons_zero]
  · cases h

end C68

/-- **C68 refuted** for the routing pool: a user begins a transaction and returns the connection; the next one to borrow it finds the transaction open. -/
theorem C68_refuted : ¬ ∀ {σ : Type} {env : Env} {W : World σ} {semi : Bool} {fuel : Nat} {net : Net σ} {ids : Nat → Bytes} {ms : List LMove} {start s : PSys (Live σ)},
    LiveReached env W semi fuel net ids ms start s → IdsDiffer s.pool.log → ∀ {m : LMove} {r : ConnRef}, Lends env W semi fuel net ids s m r →
    ∃ c, s.pool.world.conns r.ref = some c ∧ ∀ h, ¬ c.isOpen h := by
  intro hall
  have check : (match C68.final [.begin_ []] with
    | some s => decide (((made s.pool.log).map (·.2)).Nodup ∧ (C68.next s).map (·.ref) = some 1 ∧ (s.pool.world.conns 1).map (·.txs) = some [false])
    | none => false) = true := by decide +kernel
  cases hf : C68.final [.begin_ []] with
  | none => rw [hf] at check; cases check
  | some s =>
    rw [hf] at check
    obtain ⟨h1, h2, h3⟩ := of_decide_eq_true check
    obtain ⟨pool, _, hr⟩ := C68.reached hf
    cases hn : C68.next s with
    | none => rw [hn] at h2; cases h2
    | some r =>
      rw [hn] at h2
      simp only [Option.map_some, Option.some.injEq] at h2
      obtain ⟨c, hc, hno⟩ := hall hr ((idsDiffer_iff _).2 h1) (C68.lends hn)
      rw [h2] at hc
      rw [hc] at h3
      simp only [Option.map_some, Option.some.injEq] at h3
      exact hno 0 (by unfold Conn.isOpen; rw [h3]; rfl)

/-- The hypotheses of `C68_routing_partial` are met when the user rolls the transaction back. -/
example : ∃ ms start s m r, LiveReached env0 scripted false 3 C68.net C68.ids ms start s ∧ Considerate env0 scripted false 3 C68.net C68.ids start ms ∧ IdsDiffer s.pool.log ∧
    Lends env0 scripted false 3 C68.net C68.ids s m r ∧ (s.pool.world.conns r.ref).map (·.txs) = some [true] := by
  have check : (match C68.final [.begin_ [], .rollback 0] with
    | some s => decide (((made s.pool.log).map (·.2)).Nodup ∧ (C68.next s).map (·.ref) = some 1 ∧ (s.pool.world.conns 1).map (·.txs) = some [true])
    | none => false) = true := by decide +kernel
  have check' : (match C68.opened.map fun pool => (PSys.fresh pool).lives env0 scripted false 3 C68.net C68.ids ((C68.visit [.begin_ [], .rollback 0]).take 11) with
    | some s => decide ((s.pool.world.conns 1).map (·.txs) = some [true])
    | none => false) = true := by decide +kernel
  cases ho : C68.opened with
  | none => unfold C68.final at check; rw [ho] at check; cases check
  | some pool =>
    unfold C68.final at check
    rw [ho] at check check'
    simp only [Option.map_some] at check check'
    obtain ⟨h1, h2, h3⟩ := of_decide_eq_true check
    have h4 := of_decide_eq_true check'
    obtain ⟨pool', ho', hr⟩ := C68.reached (ops := [.begin_ [], .rollback 0]) (s := (PSys.fresh pool).lives env0 scripted false 3 C68.net C68.ids (C68.visit [.begin_ [], .rollback 0]))
      (by unfold C68.final; rw [ho]; rfl)
    cases ho.symm.trans ho'
    cases hn : C68.next ((PSys.fresh pool).lives env0 scripted false 3 C68.net C68.ids (C68.visit [.begin_ [], .rollback 0])) with
    | none => rw [hn] at h2; cases h2
    | some r =>
      rw [hn] at h2
      simp only [Option.map_some, Option.some.injEq] at h2
      refine ⟨_, _, _, _, r, hr, ?_, (idsDiffer_iff _).2 h1, C68.lends hn, by rw [h2]; exact h3⟩
      have no : ∀ {ms : List LMove} {s : PSys (Live (List (List Bytes)))}, (∀ m ∈ ms, ∀ r, m ≠ .pool (.call (.reclaim r))) → Considerate env0 scripted false 3 C68.net C68.ids s ms := by
        intro ms
        induction ms with
        | nil => intro s _; trivial
        | cons m ms ih => intro s h; exact ⟨fun r hm => absurd hm (h m List.mem_cons_self r), ih fun m hm => h m (List.mem_cons_of_mem _ hm)⟩
      have app : ∀ (ms ms' : List LMove) (s : PSys (Live (List (List Bytes)))), Considerate env0 scripted false 3 C68.net C68.ids s ms →
          Considerate env0 scripted false 3 C68.net C68.ids (s.lives env0 scripted false 3 C68.net C68.ids ms) ms' → Considerate env0 scripted false 3 C68.net C68.ids s (ms ++ ms') := by
        intro ms
        induction ms with
        | nil => intro ms' s _ h; exact h
        | cons m ms ih => intro ms' s h h'; exact ⟨h.1, ih ms' _ h.2 h'⟩
      rw [← List.take_append_drop 11 (C68.visit [.begin_ [], .rollback 0])]
      refine app _ _ _ (no (by simp [C68.visit, List.replicate])) ?_
      generalize (PSys.fresh pool).lives env0 scripted false 3 C68.net C68.ids ((C68.visit [.begin_ [], .rollback 0]).take 11) = z at h4 ⊢
      refine ⟨fun r hr c hc k hk => ?_, no (by simp [List.replicate])⟩
      cases hr
      dsimp only at hc
      rw [hc] at h4
      simp only [Option.map_some, Option.some.injEq] at h4
      unfold Conn.isOpen at hk
      rw [h4] at hk
      match k, hk with
      | 0, hk => cases hk
      | k + 1, hk => cases hk

end Verif
