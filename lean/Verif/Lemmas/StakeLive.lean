import Verif.Lemmas.StakeHist
/-! When rewards can be withdrawn, and what is left after a withdrawal (helpers only). -/
namespace Phoenix.Stake
open Phoenix Phoenix.Spec

theorem payFor_nonneg {h : SMap} {l : List Entry} (hl : ∀ e ∈ l, 0 ≤ e.amount) (p : Nat × Nat) : 0 ≤ payFor h l p := by
  unfold payFor
  split
  · unfold Spec.earnedFor
    split
    · exact le_refl _
    · apply List.sum_nonneg
      intro z hz
      obtain ⟨e, he, rfl⟩ := List.mem_map.mp hz
      exact reward_nonneg (hl e he) (by simp) (by simp) _ _
  · exact le_refl _

/-- no overflow, no stake newer than the distribution -/
structure Clear (h : SMap) (stakes : List Entry) (p : Nat × Nat) : Prop where
  old : ∀ T, h.get p.1 = some T → 0 < T → ∀ e ∈ stakes, e.ts ≤ p.1
  prod : ∀ T, h.get p.1 = some T → 0 < T → ∀ e ∈ stakes, e.amount * p.2 < U128_LIM
  share : ∀ T, h.get p.1 = some T → 0 < T → ∀ e ∈ stakes, e.ts < p.1 → e.amount * p.2 / T * 10 ^ 18 ≤ I128_MAX

theorem Clear.fine {m h : SMap} {stakes : List Entry} (he : ∀ e ∈ stakes, 0 ≤ e.amount ∧ e.amount ≤ I128_MAX)
    (hc : ∀ p ∈ m, Clear h stakes p) : Fine m h stakes := by
  refine ⟨he, fun d R T hd hT hpos e hx hlt => ?_⟩
  have := (hc _ hd).share T hT hpos e hx hlt
  have h0 : 0 ≤ e.amount * (R:Int) / T := Int.ediv_nonneg (mul_nonneg (he e hx).1 (by omega)) (by omega)
  simp only at this
  omega

theorem daysLoop_succeeds {m h : SMap} {stakes : List Entry} {l : SMap} {acc : Int} (hs : m.Sorted)
    (he : ∀ e ∈ stakes, 0 ≤ e.amount ∧ e.amount ≤ I128_MAX) (hl : ∀ p ∈ l, p ∈ m) (hc : ∀ p ∈ l, Clear h stakes p)
    (hacc : 0 ≤ acc) (hb : acc + (l.map (payFor h stakes)).sum ≤ I128_MAX) :
    ∃ y, daysLoop m h stakes (l.map Prod.fst) acc = .ok y := by
  induction l generalizing acc with
  | nil => exact ⟨acc, rfl⟩
  | cons p l ih =>
    obtain ⟨d, R⟩ := p
    have hcp := hc _ List.mem_cons_self
    have hnn : 0 ≤ (l.map (payFor h stakes)).sum := by
      apply List.sum_nonneg
      intro z hz
      obtain ⟨q, _, rfl⟩ := List.mem_map.mp hz
      exact payFor_nonneg (fun e h => (he e h).1) q
    have hp0 := payFor_nonneg (h := h) (fun e h => (he e h).1) (d, R)
    simp only [List.map_cons, List.sum_cons] at hb
    have hday : ∃ y, dayReward m h stakes d acc = .ok y ∧ y = acc + payFor h stakes (d, R) := by
      unfold dayReward
      rw [(SMap.get_eq_some hs).mpr (hl _ List.mem_cons_self)]
      cases hT : h.get d with
      | none => exact ⟨acc, rfl, by simp [payFor, hT]⟩
      | some T =>
        simp only
        by_cases hpos : 0 < T
        · rw [if_pos hpos]
          have hpf : payFor h stakes (d, R) = (stakes.map (fun e => Spec.reward e.amount R T d e.ts)).sum := by
            simp only [payFor, hT, Spec.earnedFor]
            rw [if_neg (by omega)]
          obtain ⟨y, hy⟩ := stakesLoop_succeeds (acc := acc) hpos he (hcp.old T hT hpos) (hcp.prod T hT hpos)
            (hcp.share T hT hpos) hacc (by rw [← hpf]; omega)
          refine ⟨y, hy, ?_⟩
          rw [hpf]
          refine (stakesLoop_val hpos he (fun e hx hlt => ?_) hy).2
          have := hcp.share T hT hpos e hx hlt
          have h0 : 0 ≤ e.amount * (R:Int) / T := Int.ediv_nonneg (mul_nonneg (he e hx).1 (by omega)) (by omega)
          simp only at this ⊢
          omega
        · rw [if_neg hpos]
          refine ⟨acc, rfl, ?_⟩
          have : T = 0 := by omega
          subst this
          simp [payFor, hT, Spec.earnedFor]
    obtain ⟨y1, hy1, rfl⟩ := hday
    obtain ⟨y, hy⟩ := ih (acc := acc + payFor h stakes (d, R)) (fun q hq => hl q (List.mem_cons_of_mem _ hq))
      (fun q hq => hc q (List.mem_cons_of_mem _ hq)) (by omega) (by omega)
    exact ⟨y, by simp only [List.map_cons, daysLoop]; rw [hy1]; exact hy⟩

theorem pending_succeeds {c : Ctx} {s : State} {tok : Addr} {i : Info} {m : SMap}
    (hm : s.rewards tok = some m) (hs : m.Sorted) (he : ∀ e ∈ i.stakes, 0 ≤ e.amount ∧ e.amount ≤ I128_MAX)
    (hc : ∀ p ∈ looked m i.last c.now, Clear s.hist i.stakes p)
    (hb : ((looked m i.last c.now).map (payFor s.hist i.stakes)).sum ≤ I128_MAX) :
    ∃ y, pending c s tok i = .ok y := by
  unfold pending rewardHistory
  rw [hm]
  show ∃ y, daysLoop m s.hist i.stakes (relevant m.keys i.last c.now) 0 = .ok y
  rw [keys_looked m hs]
  exact daysLoop_succeeds hs he (fun p hp => List.mem_of_mem_filter hp) hc (le_refl _) (by omega)

theorem transfer_works {c : Ctx} {L : Ledger} {t src d : Addr} {x : Int} (h1 : c.auth src = true) (h2 : 0 ≤ x)
    (h3 : x ≤ L.bal t src) (hs : L.bal t src ≤ I128_MAX) (hne : d ≠ src) (h4 : 0 ≤ L.bal t d)
    (h5 : L.bal t d + x ≤ I128_MAX) : ∃ L', L.transfer c t src d x = .ok L' := by
  refine ⟨_, Ledger.call_ok.mpr ⟨_, Token.transfer_ok.mpr ⟨h1, h2, h3, ?_, ?_, rfl⟩, rfl⟩⟩
  · simp only [InI128, I128_MIN]; simp only [Ledger.bal] at *; omega
  · rw [upd_ne _ _ hne]
    simp only [InI128, I128_MIN]; simp only [Ledger.bal] at *; omega

theorem payLoop_succeeds {me : Addr} {c : Ctx} {s : State} {a : Addr} (hne : a ≠ me) {l : List Addr} (hn : l.Nodup)
    {L : Ledger} (hL : ∀ t b, 0 ≤ L.bal t b)
    (hp : ∀ t ∈ l, ∃ p, pending c s t (s.info a) = .ok p ∧ 0 ≤ p ∧ p ≤ L.bal t me ∧ L.bal t me ≤ I128_MAX ∧
      L.bal t a + p ≤ I128_MAX) : ∃ L', payLoop me c s a l L = .ok L' := by
  induction l generalizing L with
  | nil => exact ⟨L, rfl⟩
  | cons t l ih =>
    obtain ⟨p, h1, h2, h3, h4, h5⟩ := hp t List.mem_cons_self
    obtain ⟨L1, hL1⟩ := transfer_works (c := c.as me) (as_auth_self c me) h2 h3 h4 hne (hL t a) h5
    obtain ⟨_, _, _, k4, _⟩ := Ledger.transfer_inv hL1
    have hnot := (List.nodup_cons.mp hn).1
    have hother : ∀ u ≠ t, ∀ b, L1.bal u b = L.bal u b := by
      intro u hu b
      rw [k4 u b]
      simp [Flow.delta, Ne.symm hu]
    have hL1n : ∀ u b, 0 ≤ L1.bal u b := by
      intro u b
      rw [k4 u b]
      have := hL u b
      simp only [Flow.delta, List.map_cons, List.map_nil, List.sum_cons, List.sum_nil]
      by_cases e : t = u ∧ me = b
      · obtain ⟨rfl, rfl⟩ := e
        simp [hne]; omega
      · rw [if_neg e]; split <;> omega
    obtain ⟨L', hL'⟩ := ih (List.nodup_cons.mp hn).2 hL1n (fun u hu => by
      have hne' : u ≠ t := fun e => hnot (e ▸ hu)
      rw [hother u hne', hother u hne']
      exact hp u (List.mem_cons_of_mem _ hu))
    exact ⟨L', by simp only [payLoop]; rw [h1]; show (L.transfer _ _ _ _ _ >>= _) = _; rw [hL1]; exact hL'⟩

/-- nothing to look at -/
theorem relevant_nil {keys : List Nat} {last now : Nat} (h : (∀ k ∈ keys, k ≤ last) ∨ now ≤ last) :
    relevant keys last now = [] := by
  unfold relevant
  rcases h with h | h
  · have : keys.find? (fun d => decide (last < d)) = none := by
      rw [List.find?_eq_none]
      intro k hk
      have := h k hk
      simp; omega
    rw [this]
  · induction keys with
    | nil => rfl
    | cons k l ih =>
      by_cases hk : last < k
      · simp only [List.find?_cons, hk, decide_true]
        have e : (k :: l).dropWhile (fun d => decide (d < k)) = k :: l := by simp
        rw [e]
        have : ¬ k ≤ now := by omega
        simp [this]
      · simp only [List.find?_cons, hk, decide_false]
        cases hf : l.find? (fun d => decide (last < d)) with
        | none => rfl
        | some f =>
          rw [hf] at ih
          have hfl := List.find?_some hf
          simp only [decide_eq_true_eq] at hfl
          have : k < f := by omega
          simp only [List.dropWhile_cons, this, decide_true, if_true]
          exact ih

theorem pending_nil {c : Ctx} {s : State} {tok : Addr} {i : Info} {m : SMap} (hm : s.rewards tok = some m)
    (h : (∀ k ∈ m.keys, k ≤ i.last) ∨ c.now ≤ i.last) : pending c s tok i = .ok 0 := by
  unfold pending rewardHistory
  rw [hm]
  show daysLoop m s.hist i.stakes (relevant m.keys i.last c.now) 0 = .ok 0
  rw [relevant_nil h]
  rfl

theorem queryLoop_ok {c : Ctx} {s : State} {a : Addr} {l : List Addr} {f : Addr → Int}
    (h : ∀ t ∈ l, pending c s t (s.info a) = .ok (f t)) :
    queryLoop c s a l = .ok (l.map (fun t => (t, asU128 (f t)))) := by
  induction l with
  | nil => rfl
  | cons t l ih =>
    simp only [queryLoop]
    rw [h t List.mem_cons_self, ih (fun u hu => h u (List.mem_cons_of_mem _ hu))]
    rfl

theorem queryLoop_inv {c : Ctx} {s : State} {a : Addr} {l : List Addr} {r : List (Addr × Nat)}
    (h : queryLoop c s a l = .ok r) :
    r.map Prod.fst = l ∧ ∀ t ∈ l, ∃ p, pending c s t (s.info a) = .ok p ∧ (t, asU128 p) ∈ r := by
  induction l generalizing r with
  | nil => simp only [queryLoop, ok_inj] at h; subst h; simp
  | cons t l ih =>
    simp only [queryLoop, bind_ok, ok_inj] at h
    obtain ⟨p, hp, r', hr, rfl⟩ := h
    obtain ⟨i1, i2⟩ := ih hr
    refine ⟨by simp [i1], fun u hu => ?_⟩
    rcases List.mem_cons.mp hu with rfl | hu
    · exact ⟨p, hp, List.mem_cons_self⟩
    · obtain ⟨p', h1, h2⟩ := i2 u hu
      exact ⟨p', h1, List.mem_cons_of_mem _ h2⟩

/-- All recorded times of `tok` are at most `n`; nothing else about time. -/
def KeysLe (s : State) (tok : Addr) (n : Nat) : Prop := ∀ m, s.rewards tok = some m → ∀ k ∈ m.keys, k ≤ n

theorem step_keys {me : Addr} {s s' : Sys} {t : Tx} {n : Nat} {tok : Addr} (h : step me s t = .ok s')
    (hk : KeysLe s.st tok n) (hn : n ≤ t.ctx.now) :
    KeysLe s'.st tok t.ctx.now ∧ (Spec.distOf me s tok t = [] → KeysLe s'.st tok n) := by
  have hok := h
  have later : KeysLe s.st tok t.ctx.now := fun m hm k hkm => le_trans (hk m hm k hkm) hn
  cases t with
  | token c tok op =>
    simp only [step, bind_ok, ok_inj] at h
    obtain ⟨L, hL, rfl⟩ := h
    exact ⟨later, fun _ => hk⟩
  | stake c k =>
    cases k with
    | init a lp mb mr m o mc =>
      simp only [step, bind_ok, ok_inj] at h
      obtain ⟨v, hi, rfl⟩ := h
      obtain ⟨_, _, _, _, rfl⟩ := init_inv hi
      exact ⟨later, fun _ => hk⟩
    | bond a x =>
      simp only [step, bind_ok, ok_inj] at h
      obtain ⟨⟨v, L⟩, hb, rfl⟩ := h
      obtain ⟨_, _, _, _, _, _, _, _, rfl, _, _⟩ := bond_inv hb
      exact ⟨later, fun _ => hk⟩
    | unbond a x ts =>
      simp only [step, bind_ok, ok_inj] at h
      obtain ⟨⟨v, L⟩, hb, rfl⟩ := h
      obtain ⟨_, _, _, _, _, _, _, _, _, rfl, _, _⟩ := unbond_inv hb
      exact ⟨later, fun _ => hk⟩
    | createFlow a u =>
      simp only [step, bind_ok, ok_inj] at h
      obtain ⟨v, hi, rfl⟩ := h
      obtain ⟨_, _, _, _, _, rfl⟩ := createFlow_inv hi
      have : ∀ n', KeysLe s.st tok n' →
          KeysLe { s.st with dists := s.st.dists ++ [u], rewards := upd s.st.rewards u (some []) } tok n' := by
        intro n' hk' m hm
        simp only [upd_apply] at hm
        split at hm
        · cases hm; simp [SMap.keys]
        · exact hk' m hm
      exact ⟨this _ later, fun _ => this _ hk⟩
    | distribute a x u =>
      have hsuc := succeeds_ok hok
      simp only [step, bind_ok, ok_inj] at h
      obtain ⟨⟨v, L⟩, hb, rfl⟩ := h
      obtain ⟨_, _, m, _, _, _, h5, _, _, _, rfl, _, _⟩ := distribute_inv hb
      refine ⟨fun m' hm => ?_, fun hd m' hm => ?_⟩
      · simp only [upd_apply] at hm
        split at hm
        · rename_i e
          subst e
          cases hm
          intro k hkm
          rcases SMap.mem_keys_set.mp hkm with rfl | hkm
          · exact le_refl _
          · exact later m h5 k hkm
        · exact later m' hm
      · simp only [Spec.distOf, hsuc, and_true] at hd
        have hne : u ≠ tok := by intro e; simp [e] at hd
        simp only [upd_ne _ _ hne.symm] at hm
        exact hk m' hm
    | withdraw a =>
      simp only [step, bind_ok, ok_inj] at h
      obtain ⟨⟨v, L⟩, hb, rfl⟩ := h
      obtain ⟨rfl, _⟩ := withdraw_inv hb
      exact ⟨later, fun _ => hk⟩

theorem exec_keys {me : Addr} {s : Sys} {t : Tx} {n : Nat} {tok : Addr} (hk : KeysLe s.st tok n) (hn : n ≤ t.ctx.now) :
    KeysLe (exec me s t).st tok t.ctx.now ∧ (Spec.distOf me s tok t = [] → KeysLe (exec me s t).st tok n) := by
  cases h : step me s t with
  | ok s' => rw [exec_ok h]; exact step_keys h hk hn
  | error e => rw [exec_error h]; exact ⟨fun m hm k hkm => le_trans (hk m hm k hkm) hn, fun _ => hk⟩

theorem run_keys {me : Addr} {s : Sys} {n : Nat} {tok : Addr} (ts : List Tx) (hk : KeysLe s.st tok n)
    (ho : Spec.TimeOrdered n ts) {k : Nat} (hn : n ≤ k) (hall : ∀ t ∈ ts, t.ctx.now ≤ k) :
    KeysLe (run me s ts).st tok k := by
  induction ts generalizing s n with
  | nil => exact fun m hm x hx => le_trans (hk m hm x hx) hn
  | cons t ts ih =>
    exact ih (exec_keys hk ho.1).1 ho.2 (hall t List.mem_cons_self) (fun u hu => hall u (List.mem_cons_of_mem _ hu))

/-- The time of the last withdrawal only grows. -/
theorem step_last {me : Addr} {s s' : Sys} {t : Tx} {n : Nat} {a : Addr} (h : step me s t = .ok s')
    (hl : n ≤ (s.st.info a).last) (hn : n ≤ t.ctx.now) : n ≤ (s'.st.info a).last := by
  cases t with
  | token c tok op =>
    simp only [step, bind_ok, ok_inj] at h
    obtain ⟨L, hL, rfl⟩ := h
    exact hl
  | stake c k =>
    cases k with
    | init b lp mb mr m o mc =>
      simp only [step, bind_ok, ok_inj] at h
      obtain ⟨v, hi, rfl⟩ := h
      obtain ⟨_, _, _, _, rfl⟩ := init_inv hi
      exact hl
    | bond b x =>
      simp only [step, bind_ok, ok_inj] at h
      obtain ⟨⟨v, L⟩, hb, rfl⟩ := h
      obtain ⟨_, _, _, _, _, _, _, _, rfl, _, _⟩ := bond_inv hb
      simp only [upd_apply]; split
      · rename_i e; subst e; exact hl
      · exact hl
    | unbond b x ts =>
      simp only [step, bind_ok, ok_inj] at h
      obtain ⟨⟨v, L⟩, hb, rfl⟩ := h
      obtain ⟨_, _, _, _, _, _, _, _, _, rfl, _, _⟩ := unbond_inv hb
      simp only [upd_apply]; split
      · rename_i e; subst e; exact hl
      · exact hl
    | createFlow b u =>
      simp only [step, bind_ok, ok_inj] at h
      obtain ⟨v, hi, rfl⟩ := h
      obtain ⟨_, _, _, _, _, rfl⟩ := createFlow_inv hi
      exact hl
    | distribute b x u =>
      simp only [step, bind_ok, ok_inj] at h
      obtain ⟨⟨v, L⟩, hb, rfl⟩ := h
      obtain ⟨_, _, m, _, _, _, h5, _, _, _, rfl, _, _⟩ := distribute_inv hb
      exact hl
    | withdraw b =>
      simp only [step, bind_ok, ok_inj] at h
      obtain ⟨⟨v, L⟩, hb, rfl⟩ := h
      obtain ⟨rfl, _⟩ := withdraw_inv hb
      simp only [upd_apply]; split
      · exact hn
      · exact hl

/-- Without new distributions of `tok`, nothing of it becomes claimable. -/
theorem run_done {me : Addr} {s : Sys} {n k : Nat} {tok a : Addr} (ts : List Tx) (hk : KeysLe s.st tok n)
    (hl : n ≤ (s.st.info a).last) (hnk : n ≤ k) (ho : Spec.TimeOrdered k ts) (hd : Spec.dists me s tok ts = []) :
    KeysLe (run me s ts).st tok n ∧ n ≤ ((run me s ts).st.info a).last := by
  induction ts generalizing s k with
  | nil => exact ⟨hk, hl⟩
  | cons t ts ih =>
    simp only [Spec.dists, List.append_eq_nil_iff] at hd
    have hn := le_trans hnk ho.1
    refine ih ((exec_keys hk hn).2 hd.1) ?_ hn ho.2 hd.2
    cases h : step me s t with
    | ok s' => rw [exec_ok h]; exact step_last h hl hn
    | error e => rw [exec_error h]; exact hl

end Phoenix.Stake
