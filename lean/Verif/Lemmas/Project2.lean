import Verif.Lemmas.Project
/-! A history of the whole protocol as a history of one contract and the tokens (helpers only). -/
namespace Phoenix.World
open Phoenix Phoenix.World.Spec
open Phoenix.Graft (graft graft_bal graft_at)

/-- successful calls of others than the contract at `A` of kind `kd` -/
inductive Done (A : Addr) (kd : Code) : Loc → Loc → List Act → Prop where
  | nil (l : Loc) : Done A kd l l []
  | cons {l l1 l2 : Loc} {a : Act} {us : List Act} (h : a.step A l = .ok l1) (ha : a.ctx.auth A = false)
      (hk : a.kind = .none ∨ a.kind = kd) (ht : a.Third) (t : Done A kd l1 l2 us) : Done A kd l l2 (a :: us)

theorem Done.trans {A : Addr} {kd : Code} {l l1 l2 : Loc} {us vs : List Act} (h1 : Done A kd l l1 us) (h2 : Done A kd l1 l2 vs) :
    Done A kd l l2 (us ++ vs) := by
  induction h1 with
  | nil => exact h2
  | cons h ha hk ht _ ih => exact .cons h ha hk ht (ih h2)

theorem Path.done {A : Addr} {n : Nat} {kd : Code} {live : Addr → Prop} {l l1 : Loc} {us : List Act}
    (p : Path A n kd live l l1 us) : Done A kd l l1 us ∧ ∀ a ∈ us, a.ctx.now = n := by
  induction p with
  | nil => exact ⟨.nil _, by simp⟩
  | cons h hn ha hk _ ht _ ih =>
    refine ⟨.cons h ha hk ht ih.1, fun a k => ?_⟩
    rcases List.mem_cons.mp k with rfl | k
    · exact hn
    · exact ih.2 a k

/-- tokens as `A` sees them -/
structure Seen (A : Addr) (w : World) (L : Ledger) : Prop where
  bal : ∀ t a, L.bal t a = w.led.bal t a
  same : ∀ t, w.code t ≠ .none → L t = w.led t
  allow : ∀ t b, ((w.led t).allow A b).amount ≤ 0 → ((L t).allow A b).amount ≤ 0

theorem graft_token_bal (M : Addr → Option Token) (L : Ledger) (t : Addr) : (graft M L t).bal = (L t).bal := by
  unfold graft; split <;> rfl

/-- own calls in the acts of a history -/
structure Owns (h : Host) (A : Addr) (w : World) (ts : List Tx) (us : List Act) : Prop where
  stake : us.filterMap Act.stake? = callsOf h (stakeCall h A) w ts
  vest : us.filterMap Act.vest? = callsOf h (vestCall A) w ts
  rew : us.filterMap Act.rew? = callsOf h (rewCall A) w ts

variable {h : Host} {acct : Accounts} {A : Addr} {kd : Code} {w0 : World}

theorem history (hh : HostOK h acct) (nA : ¬ acct A) (hkd : Modelled kd) {L' : Ledger} : ∀ (ts : List Tx) {w : World}, Inv h acct w →
    (∀ t ∈ ts, Possible acct t) → FitsK (run h w ts) A kd → Seen A (run h w ts) L' →
    ∃ L us, Seen A w L ∧ Done A kd (here w A L) (here (run h w ts) A L') us ∧ Owns h A w ts us ∧
      (Ordered (ts.map (·.ctx.now)) → Ordered (us.map (·.ctx.now))) ∧ ∀ a ∈ us, ∃ t ∈ ts, a.ctx.now = t.ctx.now
  | [], w, _, _, _, s => ⟨L', [], s, .nil _, ⟨rfl, rfl, rfl⟩, fun _ => List.Pairwise.nil, by simp⟩
  | t :: ts, w, I, hp, f, hL' => by
    have ht := hp t (by simp)
    have hps : ∀ u ∈ ts, Possible acct u := fun u hu => hp u (by simp [hu])
    obtain ⟨I1, g1⟩ := exec_inv hh I ht
    cases e : step h w t.ctx t.call with
    | error x =>
      have hx : exec h w t = w := by unfold exec; rw [e]
      have hrun : run h w (t :: ts) = run h w ts := by
        show run h (exec h w t) ts = _; rw [hx]
      rw [hrun] at f hL' ⊢
      obtain ⟨L, us, s, d, o, o1, o2⟩ := history hh nA hkd ts I hps f hL'
      refine ⟨L, us, s, d, ?_, fun k => o1 (List.Pairwise.of_cons k), fun a ha => ?_⟩
      · constructor
        · rw [o.stake, callsOf, e, hx]; rfl
        · rw [o.vest, callsOf, e, hx]; rfl
        · rw [o.rew, callsOf, e, hx]; rfl
      · obtain ⟨u, hu, k⟩ := o2 a ha
        exact ⟨u, by simp [hu], k⟩
    | ok w1 =>
      have hx : exec h w t = w1 := by unfold exec; rw [e]
      have hrun : run h w (t :: ts) = run h w1 ts := by
        show run h (exec h w t) ts = _; rw [hx]
      rw [hrun] at f hL' ⊢
      rw [hx] at I1 g1
      obtain ⟨I2, g2⟩ := run_inv hh (ts := ts) I1 hps
      have f1 : FitsK w1 A kd := by
        by_cases k : w1.code A = .none
        · exact .inl k
        · right; rw [← f.resolve_left (by rw [g2.code A k]; exact k), g2.code A k]
      have na1 : ∀ u b, ((w1.led u).allow A b).amount ≤ 0 := fun u b => (I1.core.at_ A nA).1.led.noAllow u b
      obtain ⟨L1, vs, s1, d1, o, o1, o2⟩ := history hh nA hkd ts I1 hps f hL'
      obtain ⟨L, us, pre, pa, own⟩ := step_path hh I ht.2 ht.1 nA hkd e f1
      classical
      let M : Addr → Option Token := fun u => if w1.code u = .none then some (L1 u) else none
      have hM : ∀ u, Live w1 u → M u = none := fun u hu => if_neg hu
      have hL1 : graft M w1.led = L1 := by
        funext u
        by_cases k : w1.code u = .none
        · have : M u = some (L1 u) := if_pos k
          have hb : (w1.led u).bal = (L1 u).bal := by funext a; exact (s1.bal u a).symm
          simp only [graft, this, hb]
        · rw [graft_at _ (hM u k), s1.same u k]
      have pg := pa.graft hM
      have e1 : (here w1 A w1.led).graft M = here w1 A L1 := by simp only [here, Loc.graft, hL1]
      rw [e1] at pg
      obtain ⟨dn, tm⟩ := pg.done
      refine ⟨graft M L, us ++ vs, ⟨?_, ?_, ?_⟩, dn.trans d1, ⟨?_, ?_, ?_⟩, ?_, ?_⟩
      · intro u a
        rw [graft_bal]
        rcases pre with rfl | ⟨s, r, c1, -, b1, -, rfl⟩
        · rfl
        · by_cases k : u = s
          · subst k
            have := I.core.blank u c1 a
            rw [this]; unfold Ledger.bal; rw [upd_same]; exact b1 a
          · unfold Ledger.bal; rw [upd_ne _ _ k]
      · intro u hu
        have hu1 : Live w1 u := by unfold Live; rw [g1.code u hu]; exact hu
        rw [graft_at _ (hM u hu1)]
        rcases pre with rfl | ⟨s, r, c1, -, b1, -, rfl⟩
        · rfl
        · have k : u ≠ s := fun k => hu (k ▸ c1)
          rw [upd_ne _ _ k]
      · intro u b hu
        by_cases k : w1.code u = .none
        · have hm : M u = some (L1 u) := if_pos k
          simp only [graft, hm]
          exact s1.allow u b (na1 u b)
        · rw [graft_at _ (hM u k)]
          rcases pre with rfl | ⟨s, r, c1, -, -, b1, rfl⟩
          · exact hu
          · by_cases k : u = s
            · subst k; rw [upd_same, b1]
            · rw [upd_ne _ _ k]; exact hu
      · rw [List.filterMap_append, own.stake, o.stake, callsOf, e, hx]; rfl
      · rw [List.filterMap_append, own.vest, o.vest, callsOf, e, hx]; rfl
      · rw [List.filterMap_append, own.rew, o.rew, callsOf, e, hx]; rfl
      · intro k
        rw [List.map_cons] at k
        obtain ⟨k1, k2⟩ := List.pairwise_cons.mp k
        unfold Ordered
        rw [List.map_append, List.pairwise_append]
        refine ⟨?_, o1 k2, ?_⟩
        · rw [List.pairwise_map]
          exact List.pairwise_of_forall_mem_list fun a ha b hb => by rw [tm a ha, tm b hb]
        · intro x hx y hy
          obtain ⟨a, ha, rfl⟩ := List.mem_map.mp hx
          obtain ⟨b, hb, rfl⟩ := List.mem_map.mp hy
          obtain ⟨u, hu, k⟩ := o2 b hb
          rw [tm a ha, k]; exact k1 _ (List.mem_map.mpr ⟨u, hu, rfl⟩)
      · intro a ha
        rcases List.mem_append.mp ha with ha | ha
        · exact ⟨t, by simp, tm a ha⟩
        · obtain ⟨u, hu, k⟩ := o2 a ha
          exact ⟨u, by simp [hu], k⟩

/-- two histories, one after the other -/
theorem histories (hh : HostOK h acct) (g : Genesis acct w0) {ts us : List Tx} (hp : ∀ t ∈ ts ++ us, Possible acct t)
    (hkd : Modelled kd) (f : (run h w0 (ts ++ us)).code A = kd) :
    ∃ L0 L1 vs ws, SeenFrom A w0 L0 ∧ SeenFrom A (run h w0 ts) L1 ∧
      Done A kd (here w0 A L0) (here (run h w0 ts) A L1) vs ∧
      Done A kd (here (run h w0 ts) A L1) (here (run h w0 (ts ++ us)) A (run h w0 (ts ++ us)).led) ws ∧
      Owns h A w0 ts vs ∧ Owns h A (run h w0 ts) us ws ∧
      (Ordered ((ts ++ us).map (·.ctx.now)) → Ordered ((vs ++ ws).map (·.ctx.now))) ∧ ∀ t a, 0 ≤ L0.bal t a := by
  have hp1 : ∀ t ∈ ts, Possible acct t := fun t k => hp t (by simp [k])
  have hp2 : ∀ t ∈ us, Possible acct t := fun t k => hp t (by simp [k])
  have hrun : run h w0 (ts ++ us) = run h (run h w0 ts) us := by simp only [run, List.foldl_append]
  have I0 : Inv h acct w0 := genesis_inv g
  obtain ⟨I1, -⟩ := run_inv hh I0 hp1
  obtain ⟨I2, g2⟩ := run_inv hh I1 hp2
  rw [hrun] at f ⊢
  have nA : ¬ acct A := I2.core.contracts A (by rw [f]; rcases hkd with k | k | k | k | k <;> simp [k])
  have f1 : FitsK (run h w0 ts) A kd := by
    by_cases k : (run h w0 ts).code A = .none
    · exact .inl k
    · right; rw [← f, g2.code A k]
  have na1 := fun u b => (I1.core.at_ A nA).1.led.noAllow u b
  have na0 := fun u b => (I0.core.at_ A nA).1.led.noAllow u b
  obtain ⟨L1, ws, s1, d1, o1, p1, q1⟩ := history hh nA hkd us I1 hp2 (.inr f) (L' := (run h (run h w0 ts) us).led)
    ⟨fun _ _ => rfl, fun _ _ => rfl, fun _ _ k => k⟩
  obtain ⟨L0, vs, s0, d0, o0, p0, q0⟩ := history hh nA hkd ts I0 hp1 f1 s1
  refine ⟨L0, L1, vs, ws, ⟨s0.bal, s0.same, fun u b => s0.allow u b (na0 u b)⟩,
    ⟨s1.bal, s1.same, fun u b => s1.allow u b (na1 u b)⟩, d0, d1, o0, o1, fun k => ?_, fun t a => ?_⟩
  · unfold Ordered at k ⊢
    rw [List.map_append, List.pairwise_append] at k ⊢
    refine ⟨p0 k.1, p1 k.2.1, fun x hx y hy => ?_⟩
    obtain ⟨a, ha, rfl⟩ := List.mem_map.mp hx
    obtain ⟨b, hb, rfl⟩ := List.mem_map.mp hy
    obtain ⟨t, ht, e1⟩ := q0 a ha
    obtain ⟨u, hu, e2⟩ := q1 b hb
    rw [e1, e2]
    exact k.2.2 _ (List.mem_map.mpr ⟨t, ht, rfl⟩) _ (List.mem_map.mpr ⟨u, hu, rfl⟩)
  · rw [s0.bal]; exact (g.range t a).1

/-! ### To the models of the single contracts -/

def Act.toStake : Act → Option Stake.Tx
  | .token c t op => some (.token c t op)
  | .stake c k => some (.stake c k)
  | _ => none
def Act.toVest : Act → Option Vesting.Tx
  | .token c t op => some (.token c t op)
  | .vest c k => some (.vest c k)
  | _ => none
def Act.toRew : Act → Option Rewards.Tx
  | .token c t op => some (.token c t op)
  | .rew c k => some (.rewards c k)
  | _ => none
def Act.toPool : Act → Option Pool.Tx
  | .token c t op => some (.token c t op)
  | .xyk c k => some (.pool c k)
  | _ => none
def Act.toStable : Act → Option Stable.Tx
  | .token c t op => some (.token c t op)
  | .stable c k => some (.pool c k)
  | _ => none

theorem foldlM_app {σ τ : Type} {f : σ → τ → Res σ} {s s1 s2 : σ} {ts us : List τ} (h1 : ts.foldlM f s = .ok s1)
    (h2 : us.foldlM f s1 = .ok s2) : (ts ++ us).foldlM f s = .ok s2 := by
  rw [List.foldlM_append, h1]; exact h2

/-- calls that all succeed -/
theorem foldl_of_foldlM {σ τ : Type} {f : σ → τ → Res σ} {e : σ → τ → σ} (hf : ∀ s t s', f s t = .ok s' → e s t = s') :
    ∀ {ts : List τ} {s s' : σ}, ts.foldlM f s = .ok s' → ts.foldl e s = s'
  | [], s, s', h => by cases h; rfl
  | t :: ts, s, s', h => by
    rw [List.foldlM_cons] at h
    simp only [bind_ok] at h
    obtain ⟨s1, h1, h2⟩ := h
    rw [List.foldl_cons, hf _ _ _ h1]
    exact foldl_of_foldlM hf h2

theorem Done.stake {l l' : Loc} {us : List Act} (d : Done A .stake l l' us) :
    (us.filterMap Act.toStake).foldlM (Stake.step A) ⟨l.stake, l.led⟩ = .ok ⟨l'.stake, l'.led⟩ ∧
    (∀ t ∈ us.filterMap Act.toStake, Stake.Spec.Possible A t) ∧
    (us.filterMap Act.toStake).filterMap stakePart = us.filterMap Act.stake? ∧
    (us.filterMap Act.toStake).map (·.ctx.now) = us.map (·.ctx.now) := by
  induction d with
  | nil => exact ⟨rfl, by simp, rfl, rfl⟩
  | @cons l l1 l2 a us h ha hk ht _ ih =>
    obtain ⟨i1, i2, i3, i4⟩ := ih
    cases a with
    | token c t op =>
      simp only [Act.step, bind_ok, ok_inj] at h
      obtain ⟨L, h, rfl⟩ := h
      have e : Stake.step A ⟨l.stake, l.led⟩ (.token c t op) = .ok ⟨l.stake, L⟩ := by
        simp only [Stake.step, h]; rfl
      refine ⟨?_, ?_, ?_, ?_⟩
      · simp only [List.filterMap_cons, Act.toStake, List.foldlM_cons, e]; exact i1
      · simp only [List.filterMap_cons, Act.toStake, List.forall_mem_cons]; exact ⟨ha, i2⟩
      · simp only [List.filterMap_cons, Act.toStake, stakePart, Act.stake?]; exact i3
      · simp only [List.filterMap_cons, Act.toStake, List.map_cons, i4]; rfl
    | stake c k =>
      simp only [Act.step, bind_ok, ok_inj] at h
      obtain ⟨s, h, rfl⟩ := h
      refine ⟨?_, ?_, ?_, ?_⟩
      · simp only [List.filterMap_cons, Act.toStake, List.foldlM_cons, h]; exact i1
      · simp only [List.filterMap_cons, Act.toStake, List.forall_mem_cons]; exact ⟨ha, i2⟩
      · simp only [List.filterMap_cons, Act.toStake, stakePart, Act.stake?, i3]
      · simp only [List.filterMap_cons, Act.toStake, List.map_cons, i4]; rfl
    | _ => simp [Act.kind] at hk

theorem Done.vest {l l' : Loc} {us : List Act} (d : Done A .vesting l l' us) :
    (us.filterMap Act.toVest).foldlM (Vesting.step A) ⟨l.vest, l.led⟩ = .ok ⟨l'.vest, l'.led⟩ ∧
    (∀ t ∈ us.filterMap Act.toVest, Vesting.Spec.Possible A t) ∧
    (us.filterMap Act.toVest).filterMap vestPart = us.filterMap Act.vest? ∧
    (us.filterMap Act.toVest).map (·.ctx.now) = us.map (·.ctx.now) := by
  induction d with
  | nil => exact ⟨rfl, by simp, rfl, rfl⟩
  | @cons l l1 l2 a us h ha hk ht _ ih =>
    obtain ⟨i1, i2, i3, i4⟩ := ih
    cases a with
    | token c t op =>
      simp only [Act.step, bind_ok, ok_inj] at h
      obtain ⟨L, h, rfl⟩ := h
      have e : Vesting.step A ⟨l.vest, l.led⟩ (.token c t op) = .ok ⟨l.vest, L⟩ := by
        simp only [Vesting.step, h]; rfl
      refine ⟨?_, ?_, ?_, ?_⟩
      · simp only [List.filterMap_cons, Act.toVest, List.foldlM_cons, e]; exact i1
      · simp only [List.filterMap_cons, Act.toVest, List.forall_mem_cons]; exact ⟨ha, i2⟩
      · simp only [List.filterMap_cons, Act.toVest, vestPart, Act.vest?]; exact i3
      · simp only [List.filterMap_cons, Act.toVest, List.map_cons, i4]; rfl
    | vest c k =>
      simp only [Act.step, bind_ok, ok_inj] at h
      obtain ⟨s, h, rfl⟩ := h
      refine ⟨?_, ?_, ?_, ?_⟩
      · simp only [List.filterMap_cons, Act.toVest, List.foldlM_cons, h]; exact i1
      · simp only [List.filterMap_cons, Act.toVest, List.forall_mem_cons]; exact ⟨ha, i2⟩
      · simp only [List.filterMap_cons, Act.toVest, vestPart, Act.vest?, i3]
      · simp only [List.filterMap_cons, Act.toVest, List.map_cons, i4]; rfl
    | _ => simp [Act.kind] at hk

theorem Done.rew {l l' : Loc} {us : List Act} (d : Done A .rewards l l' us) :
    (us.filterMap Act.toRew).foldlM (Rewards.step A) ⟨l.rew, l.led⟩ = .ok ⟨l'.rew, l'.led⟩ ∧
    (∀ t ∈ us.filterMap Act.toRew, Rewards.Spec.Possible A t) ∧
    (us.filterMap Act.toRew).filterMap rewPart = us.filterMap Act.rew? ∧
    (us.filterMap Act.toRew).map (·.ctx.now) = us.map (·.ctx.now) := by
  induction d with
  | nil => exact ⟨rfl, by simp, rfl, rfl⟩
  | @cons l l1 l2 a us h ha hk ht _ ih =>
    obtain ⟨i1, i2, i3, i4⟩ := ih
    cases a with
    | token c t op =>
      simp only [Act.step, bind_ok, ok_inj] at h
      obtain ⟨L, h, rfl⟩ := h
      have e : Rewards.step A ⟨l.rew, l.led⟩ (.token c t op) = .ok ⟨l.rew, L⟩ := by
        simp only [Rewards.step, h]; rfl
      refine ⟨?_, ?_, ?_, ?_⟩
      · simp only [List.filterMap_cons, Act.toRew, List.foldlM_cons, e]; exact i1
      · simp only [List.filterMap_cons, Act.toRew, List.forall_mem_cons]; exact ⟨ha, i2⟩
      · simp only [List.filterMap_cons, Act.toRew, rewPart, Act.rew?]; exact i3
      · simp only [List.filterMap_cons, Act.toRew, List.map_cons, i4]; rfl
    | rew c k =>
      simp only [Act.step, bind_ok, ok_inj] at h
      obtain ⟨s, h, rfl⟩ := h
      refine ⟨?_, ?_, ?_, ?_⟩
      · simp only [List.filterMap_cons, Act.toRew, List.foldlM_cons, h]; exact i1
      · simp only [List.filterMap_cons, Act.toRew, List.forall_mem_cons]; exact ⟨ha, i2⟩
      · simp only [List.filterMap_cons, Act.toRew, rewPart, Act.rew?, i3]
      · simp only [List.filterMap_cons, Act.toRew, List.map_cons, i4]; rfl
    | _ => simp [Act.kind] at hk

theorem Done.xyk {l l' : Loc} {us : List Act} (d : Done A .xyk l l' us) :
    (us.filterMap Act.toPool).foldlM (Pool.step A) ⟨l.xyk, l.led⟩ = .ok ⟨l'.xyk, l'.led⟩ ∧
    (∀ t ∈ us.filterMap Act.toPool, Phoenix.Spec.Possible A t) ∧
    (us.filterMap Act.toPool).map (·.ctx.now) = us.map (·.ctx.now) := by
  induction d with
  | nil => exact ⟨rfl, by simp, rfl⟩
  | @cons l l1 l2 a us h ha hk ht _ ih =>
    obtain ⟨i1, i2, i4⟩ := ih
    cases a with
    | token c t op =>
      simp only [Act.step, bind_ok, ok_inj] at h
      obtain ⟨L, h, rfl⟩ := h
      have e : Pool.step A ⟨l.xyk, l.led⟩ (.token c t op) = .ok ⟨l.xyk, L⟩ := by
        simp only [Pool.step, h]; rfl
      refine ⟨?_, ?_, ?_⟩
      · simp only [List.filterMap_cons, Act.toPool, List.foldlM_cons, e]; exact i1
      · simp only [List.filterMap_cons, Act.toPool, List.forall_mem_cons]; exact ⟨⟨ha, trivial⟩, i2⟩
      · simp only [List.filterMap_cons, Act.toPool, List.map_cons, i4]; rfl
    | xyk c k =>
      simp only [Act.step, bind_ok, ok_inj] at h
      obtain ⟨s, h, rfl⟩ := h
      refine ⟨?_, ?_, ?_⟩
      · simp only [List.filterMap_cons, Act.toPool, List.foldlM_cons, h]; exact i1
      · simp only [List.filterMap_cons, Act.toPool, List.forall_mem_cons]
        refine ⟨⟨ha, ?_⟩, i2⟩
        cases k <;> exact ht
      · simp only [List.filterMap_cons, Act.toPool, List.map_cons, i4]; rfl
    | _ => simp [Act.kind] at hk

theorem Done.stable {l l' : Loc} {us : List Act} (d : Done A .stable l l' us) :
    (us.filterMap Act.toStable).foldlM (Stable.step A) ⟨l.stable, l.led⟩ = .ok ⟨l'.stable, l'.led⟩ ∧
    (∀ t ∈ us.filterMap Act.toStable, Stable.Spec.Possible A t) ∧
    (us.filterMap Act.toStable).map (·.ctx.now) = us.map (·.ctx.now) := by
  induction d with
  | nil => exact ⟨rfl, by simp, rfl⟩
  | @cons l l1 l2 a us h ha hk ht _ ih =>
    obtain ⟨i1, i2, i4⟩ := ih
    cases a with
    | token c t op =>
      simp only [Act.step, bind_ok, ok_inj] at h
      obtain ⟨L, h, rfl⟩ := h
      have e : Stable.step A ⟨l.stable, l.led⟩ (.token c t op) = .ok ⟨l.stable, L⟩ := by
        simp only [Stable.step, h]; rfl
      refine ⟨?_, ?_, ?_⟩
      · simp only [List.filterMap_cons, Act.toStable, List.foldlM_cons, e]; exact i1
      · simp only [List.filterMap_cons, Act.toStable, List.forall_mem_cons]; exact ⟨⟨ha, trivial⟩, i2⟩
      · simp only [List.filterMap_cons, Act.toStable, List.map_cons, i4]; rfl
    | stable c k =>
      simp only [Act.step, bind_ok, ok_inj] at h
      obtain ⟨s, h, rfl⟩ := h
      refine ⟨?_, ?_, ?_⟩
      · simp only [List.filterMap_cons, Act.toStable, List.foldlM_cons, h]; exact i1
      · simp only [List.filterMap_cons, Act.toStable, List.forall_mem_cons]
        refine ⟨⟨ha, ?_⟩, i2⟩
        cases k <;> exact ht
      · simp only [List.filterMap_cons, Act.toStable, List.map_cons, i4]; rfl
    | _ => simp [Act.kind] at hk

end Phoenix.World
