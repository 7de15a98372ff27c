import Verif.Props.Value
import Verif.Spec.Trade
/-
C124: what others can gain from a trade by trading, depositing and withdrawing around it.
-/
namespace Phoenix.Props.Sandwich
open Phoenix Pool Spec Ledger Phoenix.Props Phoenix.Props.Value

theorem flow_sum (W : Finset Addr) (f : Flow) (t : Addr) (h0 : 0 ≤ f.amt) (hs : f.src ∈ W) : ∑ a ∈ W, f.delta t a ≤ 0 := by
  unfold Flow.delta
  rw [Finset.sum_sub_distrib]
  by_cases ht : f.tok = t
  · simp only [ht, true_and, Finset.sum_ite_eq, hs, if_true]
    split <;> omega
  · simp [ht]

theorem flow_one {f : Flow} {t u : Addr} (h0 : 0 ≤ f.amt) (hs : f.src ≠ u) : 0 ≤ f.delta t u := by
  unfold Flow.delta
  rw [if_neg (c := f.tok = t ∧ f.src = u) (fun h => hs h.2)]
  split <;> omega

/-- In a pool call the caller, the pool and whoever else do not gain tokens together; an account that does
not call loses nothing. -/
theorem call_flows {me : Addr} {s s' : Sys} {c : Ctx} {k : Call} {p : State} (hs : SysInv me s) (ht : Possible me (.pool c k))
    (h : step me s (.pool c k) = .ok s') (hp : s.pool = some p) {tok : Addr} (htok : IsPoolToken p tok) :
    (∀ W : Finset Addr, me ∈ W → (∀ a, caller (.pool c k) = some a → a ∈ W) →
      ∑ a ∈ W, s'.led.bal tok a ≤ ∑ a ∈ W, s.led.bal tok a) ∧
    (∀ u, u ≠ me → caller (.pool c k) ≠ some u → s.led.bal tok u ≤ s'.led.bal tok u) := by
  have hP := hs.pool p hp
  have hself : c.auth me = false := ht.1
  obtain ⟨-, d1, d2⟩ := hP.distinct
  have hsh : p.cfg.shareToken ≠ tok := by rcases htok with rfl | rfl <;> assumption
  cases k with
  | init i =>
    simp only [step, bind_ok, ok_inj] at h
    obtain ⟨⟨p', L'⟩, hi, rfl⟩ := h
    have := (init_inv hi).1
    rw [hp] at this; simp at this
  | provide sd dA mA dB mB cu dl =>
    simp only [step, bind_ok, hp, loaded, ok_inj] at h
    obtain ⟨_, rfl, ⟨p', L'⟩, hk, rfl⟩ := h
    obtain ⟨a, b, m, lock, -, -, -, -, h5, -, h7, -, -, -, h11, -, -, -⟩ := provide_inv hk hself hP.distinct
    refine ⟨fun W hm hc => ?_, fun u hu hc => ?_⟩
    · simp only [h11, hsh, false_and, if_false, add_zero, Finset.sum_add_distrib]
      have hsd : sd ∈ W := hc sd rfl
      have := flow_sum W ⟨p.cfg.tokenA, sd, me, a⟩ tok h5 hsd
      have := flow_sum W ⟨p.cfg.tokenB, sd, me, b⟩ tok h7 hsd
      omega
    · have hne : sd ≠ u := fun e => hc (by rw [← e]; rfl)
      simp only [h11, hsh, false_and, if_false, add_zero]
      have := flow_one (f := ⟨p.cfg.tokenA, sd, me, a⟩) (t := tok) h5 hne
      have := flow_one (f := ⟨p.cfg.tokenB, sd, me, b⟩) (t := tok) h7 hne
      omega
  | swap sd o a mo ms dl mf =>
    simp only [step, bind_ok, hp, loaded, ok_inj] at h
    obtain ⟨_, rfl, ⟨p', L', r⟩, hk, rfl⟩ := h
    obtain ⟨rate, lim, r, -, h2, -, -, -, -, -, -, h9, -, -, -, -, h14, -⟩ := swap_inv hk hself hP.distinct.1
    have hq := quote_core h9
    have r0 : 0 ≤ r.ret := by have := hq.2.2.2.2.1; have := hq.2.2.2.2.2.1; omega
    have c0 : 0 ≤ r.commission := by have := hq.2.2.2.2.1; have := hq.2.2.2.2.2.1; omega
    have h14 : ∀ t a, L'.bal t a = _ := h14
    simp only [List.map_cons, List.map_nil, List.sum_cons, List.sum_nil, add_zero] at h14
    refine ⟨fun W hm hc => ?_, fun u hu hc => ?_⟩
    · simp only [h14, Finset.sum_add_distrib]
      have hsd : sd ∈ W := hc sd rfl
      have := flow_sum W ⟨o, sd, me, a⟩ tok h2.le hsd
      have := flow_sum W ⟨other p o, me, sd, r.ret⟩ tok r0 hm
      have := flow_sum W ⟨other p o, me, p.cfg.feeRecipient, r.commission⟩ tok c0 hm
      omega
    · have hne : sd ≠ u := fun e => hc (by rw [← e]; rfl)
      simp only [h14]
      have := flow_one (f := ⟨o, sd, me, a⟩) (t := tok) h2.le hne
      have := flow_one (f := ⟨other p o, me, sd, r.ret⟩) (t := tok) r0 (Ne.symm hu)
      have := flow_one (f := ⟨other p o, me, p.cfg.feeRecipient, r.commission⟩) (t := tok) c0 (Ne.symm hu)
      omega
  | withdraw sd sh mA mB dl =>
    simp only [step, bind_ok, hp, loaded, ok_inj] at h
    obtain ⟨_, rfl, ⟨p', L', ra, rb⟩, hk, rfl⟩ := h
    obtain ⟨-, -, -, h4, h5, h6, h7, -, -, -, -, -, -, h14, -, -⟩ := withdraw_inv hk hself hP.distinct
    refine ⟨fun W hm hc => ?_, fun u hu hc => ?_⟩
    · simp only [h14, hsh, false_and, if_false, sub_zero, Finset.sum_add_distrib]
      have := flow_sum W ⟨p.cfg.tokenA, me, sd, ra⟩ tok (show 0 ≤ ra by omega) hm
      have := flow_sum W ⟨p.cfg.tokenB, me, sd, rb⟩ tok (show 0 ≤ rb by omega) hm
      omega
    · simp only [h14, hsh, false_and, if_false, sub_zero]
      have := flow_one (f := ⟨p.cfg.tokenA, me, sd, ra⟩) (t := tok) (show 0 ≤ ra by omega) (Ne.symm hu)
      have := flow_one (f := ⟨p.cfg.tokenB, me, sd, rb⟩) (t := tok) (show 0 ≤ rb by omega) (Ne.symm hu)
      omega
  | updateConfig u =>
    simp only [step, bind_ok, hp, loaded, ok_inj] at h
    obtain ⟨_, rfl, p', hk, rfl⟩ := h
    exact ⟨fun _ _ _ => le_refl _, fun _ _ _ => le_refl _⟩
  | upgrade sl =>
    simp only [step, bind_ok, hp, loaded, ok_inj] at h
    obtain ⟨_, rfl, p', hk, rfl⟩ := h
    exact ⟨fun _ _ _ => le_refl _, fun _ _ _ => le_refl _⟩

theorem exec_flows {me : Addr} {s : Sys} {c : Ctx} {k : Call} {p : State} (hs : SysInv me s) (ht : Possible me (.pool c k))
    (hp : s.pool = some p) {tok : Addr} (htok : IsPoolToken p tok) :
    (∀ W : Finset Addr, me ∈ W → (∀ a, caller (.pool c k) = some a → a ∈ W) →
      ∑ a ∈ W, (exec me s (.pool c k)).led.bal tok a ≤ ∑ a ∈ W, s.led.bal tok a) ∧
    (∀ u, u ≠ me → caller (.pool c k) ≠ some u → s.led.bal tok u ≤ (exec me s (.pool c k)).led.bal tok u) := by
  unfold exec
  cases h : step me s (.pool c k) with
  | ok s' => exact call_flows hs ht h hp htok
  | error e => exact ⟨fun _ _ _ => le_refl _, fun _ _ _ => le_refl _⟩

/-- What the callers get, the pool loses. -/
theorem pool_pays {me : Addr} {s : Sys} {U : Finset Addr} (hme : me ∉ U) (us : List Tx) (hs : SysInv me s)
    (hu : ∀ t ∈ us, Possible me t) (hc : ∀ t ∈ us, ∀ a, caller t = some a → a ∈ U)
    {p : State} (hp : s.pool = some p) {tok : Addr} (htok : IsPoolToken p tok) :
    (run me s us).led.bal tok me ≤ s.led.bal tok me + given me tok s us - gain me U tok s us := by
  induction us generalizing s p with
  | nil => simp [run, given, gain]
  | cons t us ih =>
    have ht := hu t (by simp)
    have hs1 := exec_keeps ht hs
    obtain ⟨p1, h1, eA, eB, -, -, -⟩ := run_pool [t] hs (by simpa using ht) hp
    have h1 : (exec me s t).pool = some p1 := h1
    have htok1 : IsPoolToken p1 tok := by unfold IsPoolToken at *; rw [eA, eB]; exact htok
    have ih := ih hs1 (fun t' h' => hu t' (by simp [h'])) (fun t' h' => hc t' (by simp [h'])) h1 htok1
    have er : run me s (t :: us) = run me (exec me s t) us := rfl
    rw [er]
    simp only [given, gain]
    cases t with
    | token c tk op => simp only [isPoolCall, Bool.false_eq_true, if_false]; omega
    | pool c k =>
      simp only [isPoolCall, if_true, zero_add]
      have := (exec_flows hs ht hp htok).1 (insert me U) (by simp) (fun a ha => by simp [hc _ (by simp) a ha])
      rw [Finset.sum_insert hme, Finset.sum_insert hme] at this
      rw [Finset.sum_sub_distrib]
      omega

/-- **C124** Take any reachable state and any further history, with `k` swaps each of which leaves both
reserves at `m` or more, in which only the accounts `U` call the pool.  Subtract what these accounts gain
in it from what the pool holds and is given: what is left is worth at least the reserves of the start, as a
product of the two amounts per squared share, up to `k` parts in `m + 1`. -/
theorem C124_together {me : Addr} {s : Sys} (h0 : Genesis me s) (ts us : List Tx)
    (ht : ∀ t ∈ ts, Possible me t) (hu : ∀ t ∈ us, Possible me t) {m : Int} (hm : 0 ≤ m)
    (hfl : SwapsLeave me m (run me s ts) us)
    {U : Finset Addr} (hme : me ∉ U) (hc : ∀ t ∈ us, ∀ a, caller t = some a → a ∈ U)
    {p p' : State} (hp : (run me s ts).pool = some p) (hp' : (run me s (ts ++ us)).pool = some p') :
    let left := fun tok => (run me s ts).led.bal tok me + given me tok (run me s ts) us - gain me U tok (run me s ts) us
    0 ≤ left p.cfg.tokenA ∧ 0 ≤ left p.cfg.tokenB ∧
    p.resA * p.resB * p'.total ^ 2 * (m + 1 - us.countP isSwap) ≤ left p.cfg.tokenA * left p.cfg.tokenB * p.total ^ 2 * (m + 1) := by
  intro left
  have hI := run_keeps ts ht (genesis_inv h0)
  have hv := C107_value_per_share h0 ts us ht hu hm hfl hp hp'
  obtain ⟨q, hq, eA, eB, -⟩ := run_pool us hI hu hp
  rw [← run_append, hp'] at hq
  cases hq
  have hP' := (run_keeps (ts ++ us) (fun t h => by rcases List.mem_append.1 h with h | h; exacts [ht t h, hu t h]) (genesis_inv h0)).pool p' hp'
  have lA := pool_pays hme us hI hu hc hp (tok := p.cfg.tokenA) (.inl rfl)
  have lB := pool_pays hme us hI hu hc hp (tok := p.cfg.tokenB) (.inr rfl)
  rw [← run_append] at lA lB
  have a1 : p'.resA ≤ left p.cfg.tokenA := by have := hP'.aB; rw [eA] at this; exact this.trans lA
  have b1 : p'.resB ≤ left p.cfg.tokenB := by have := hP'.bB; rw [eB] at this; exact this.trans lB
  have a0 := hP'.a0
  have b0 := hP'.b0
  refine ⟨a0.trans a1, b0.trans b1, hv.trans ?_⟩
  have := mul_le_mul a1 b1 b0 (a0.trans a1)
  exact mul_le_mul_of_nonneg_right (mul_le_mul_of_nonneg_right this (sq_nonneg _)) (by omega)

theorem gain_union {me : Addr} {V S : Finset Addr} (hd : Disjoint V S) {tok : Addr} {s : Sys} (us : List Tx) :
    gain me (V ∪ S) tok s us = gain me V tok s us + gain me S tok s us := by
  induction us generalizing s with
  | nil => rfl
  | cons t us ih =>
    simp only [gain, ih]
    split
    · rw [Finset.sum_union hd]; ring
    · ring

theorem sandwich_core {me : Addr} {s : Sys} (h0 : Genesis me s) (ts us : List Tx)
    (ht : ∀ t ∈ ts, Possible me t) (hu : ∀ t ∈ us, Possible me t) {m : Int} (hm : 0 ≤ m)
    (hfl : SwapsLeave me m (run me s ts) us)
    {V S : Finset Addr} (hV : me ∉ V) (hS : me ∉ S) (hd : Disjoint V S)
    (hc : ∀ t ∈ us, ∀ a, caller t = some a → a ∈ V ∨ a ∈ S)
    {p p' : State} (hp : (run me s ts).pool = some p) (hp' : (run me s (ts ++ us)).pool = some p')
    (hpos : 0 < p.total) (hT : p.total ≤ p'.total) {offer : Addr} (ho : IsPoolToken p offer)
    (hgift : ∀ tok, IsPoolToken p tok → (run me s ts).led.bal tok me + given me tok (run me s ts) us ≤ reserve p tok)
    {A B x y k go ga : Int} (hA : A = reserve p offer) (hB : B = reserve p (other p offer)) (hk : k = us.countP isSwap)
    (hx : -x = gain me V offer (run me s ts) us) (hy : y = gain me V (other p offer) (run me s ts) us)
    (hgo : go = gain me S offer (run me s ts) us) (hga : ga = gain me S (other p offer) (run me s ts) us) :
    A * B * (m + 1 - k) ≤ (A + x - go) * (B - y - ga) * (m + 1) ∧ 0 ≤ A + x - go ∧ 0 ≤ B - y - ga := by
  have hU : me ∉ V ∪ S := by simp [hV, hS]
  have key := C124_together h0 ts us ht hu hm hfl hU (fun t h a ha => Finset.mem_union.2 (hc t h a ha)) hp hp'
  simp only [gain_union hd] at key
  obtain ⟨k1, k2, k3⟩ := key
  have hI := run_keeps ts ht (genesis_inv h0)
  have hP := hI.pool p hp
  obtain ⟨hne, -, -⟩ := hP.distinct
  have gA := hgift p.cfg.tokenA (.inl rfl)
  have gB := hgift p.cfg.tokenB (.inr rfl)
  simp only [reserve, if_true, hne.symm, if_false] at gA gB
  set LA := (run me s ts).led.bal p.cfg.tokenA me + given me p.cfg.tokenA (run me s ts) us with hLA
  set LB := (run me s ts).led.bal p.cfg.tokenB me + given me p.cfg.tokenB (run me s ts) us with hLB
  rw [← hk] at k3
  have hAB := mul_nonneg hP.a0 hP.b0
  have l2 : 0 < p.total ^ 2 := by positivity
  have hTT : p.total ^ 2 ≤ p'.total ^ 2 := by nlinarith
  have hk0 : 0 ≤ k := by rw [hk]; exact Int.natCast_nonneg _
  -- the product, with the shares gone
  have core : p.resA * p.resB * (m + 1 - k) ≤
      (LA - (gain me V p.cfg.tokenA (run me s ts) us + gain me S p.cfg.tokenA (run me s ts) us)) *
      (LB - (gain me V p.cfg.tokenB (run me s ts) us + gain me S p.cfg.tokenB (run me s ts) us)) * (m + 1) := by
    by_cases hneg : m + 1 - k ≤ 0
    · exact (mul_nonpos_of_nonneg_of_nonpos hAB hneg).trans (mul_nonneg (mul_nonneg k1 k2) (by omega))
    · refine le_of_mul_le_mul_right ?_ l2
      have e1 : p.resA * p.resB * (m + 1 - k) * p.total ^ 2 ≤ p.resA * p.resB * (m + 1 - k) * p'.total ^ 2 :=
        mul_le_mul_of_nonneg_left hTT (mul_nonneg hAB (by omega))
      have e2 : p.resA * p.resB * p'.total ^ 2 * (m + 1 - k) = p.resA * p.resB * (m + 1 - k) * p'.total ^ 2 := by ring
      rw [e2] at k3
      refine (e1.trans k3).trans (le_of_eq ?_)
      ring
  -- in terms of the token offered and the other one
  have main : A * B * (m + 1 - k) ≤ (A + x - go) * (B - y - ga) * (m + 1) ∧ 0 ≤ A + x - go ∧ 0 ≤ B - y - ga := by
    rcases ho with rfl | rfl
    · have eo : other p p.cfg.tokenA = p.cfg.tokenB := by simp [other]
      rw [eo] at hB hy hga
      simp only [reserve, if_true, hne.symm, if_false] at hA hB
      rw [← hx, ← hgo, ← hy, ← hga] at core
      rw [← hx, ← hgo] at k1
      rw [← hy, ← hga] at k2
      subst hA hB
      refine ⟨core.trans ?_, by omega, by omega⟩
      exact mul_le_mul_of_nonneg_right (mul_le_mul (by omega) (by omega) k2 (by omega)) (by omega)
    · have eo : other p p.cfg.tokenB = p.cfg.tokenA := by simp [other, hne.symm]
      rw [eo] at hB hy hga
      simp only [reserve, if_true, hne.symm, if_false] at hA hB
      rw [← hx, ← hgo, ← hy, ← hga] at core
      rw [← hx, ← hgo] at k2
      rw [← hy, ← hga] at k1
      subst hA hB
      refine ⟨?_, by omega, by omega⟩
      have c2 := core.trans (mul_le_mul_of_nonneg_right (mul_le_mul (show _ ≤ p.resA - y - ga by omega) (show _ ≤ p.resB + x - go by omega) k2 (by omega)) (show 0 ≤ m + 1 by omega))
      linarith
  exact main

/-- **C124** The traders `V` sell `offer`, others `S` trade, deposit and withdraw before, between and after,
nothing is given to the pool, and in the end at least as many shares exist as before.  If the others do not
end up with less of `offer`, then what they gain of the other token, together with what the traders get for
the `x` they pay, is at most what `x` buys at the constant product price in the starting reserves, up to
`k` parts in `m + 1` of the starting reserve.  And if the others do not end up with less of the other token,
then they gain at most what the traders pay in excess of the price of what they get. -/
theorem C124_sandwich {me : Addr} {s : Sys} (h0 : Genesis me s) (ts us : List Tx)
    (ht : ∀ t ∈ ts, Possible me t) (hu : ∀ t ∈ us, Possible me t) {m : Int} (hm : 0 ≤ m)
    (hfl : SwapsLeave me m (run me s ts) us)
    {V S : Finset Addr} (hV : me ∉ V) (hS : me ∉ S) (hd : Disjoint V S)
    (hc : ∀ t ∈ us, ∀ a, caller t = some a → a ∈ V ∨ a ∈ S)
    {p p' : State} (hp : (run me s ts).pool = some p) (hp' : (run me s (ts ++ us)).pool = some p')
    (hpos : 0 < p.total) (hT : p.total ≤ p'.total) {offer : Addr} (ho : IsPoolToken p offer)
    (hgift : ∀ tok, IsPoolToken p tok → (run me s ts).led.bal tok me + given me tok (run me s ts) us ≤ reserve p tok)
    {A B x y k go ga : Int} (hA : A = reserve p offer) (hB : B = reserve p (other p offer)) (hk : k = us.countP isSwap)
    (hx : -x = gain me V offer (run me s ts) us) (hy : y = gain me V (other p offer) (run me s ts) us)
    (hgo : go = gain me S offer (run me s ts) us) (hga : ga = gain me S (other p offer) (run me s ts) us) :
    (0 ≤ go → (A + x) * (y + ga) * (m + 1) ≤ B * x * (m + 1) + A * B * k) ∧
    (0 ≤ ga → A * y * (m + 1) + (B - y) * go * (m + 1) ≤ (B - y) * x * (m + 1) + A * B * k) := by
  obtain ⟨m1, m2, m3⟩ := sandwich_core h0 ts us ht hu hm hfl hV hS hd hc hp hp' hpos hT ho hgift hA hB hk hx hy hgo hga
  constructor
  · intro h
    have : (A + x - go) * (B - y - ga) * (m + 1) ≤ (A + x) * (B - y - ga) * (m + 1) :=
      mul_le_mul_of_nonneg_right (mul_le_mul_of_nonneg_right (by omega) m3) (by omega)
    linarith
  · intro h
    have : (A + x - go) * (B - y - ga) * (m + 1) ≤ (A + x - go) * (B - y) * (m + 1) :=
      mul_le_mul_of_nonneg_right (mul_le_mul_of_nonneg_left (by omega) m2) (by omega)
    linarith

theorem gain_append {me : Addr} {U : Finset Addr} {tok : Addr} {s : Sys} (us vs : List Tx) :
    gain me U tok s (us ++ vs) = gain me U tok s us + gain me U tok (run me s us) vs := by
  induction us generalizing s with
  | nil => simp [gain, run]
  | cons t us ih =>
    have er : run me s (t :: us) = run me (exec me s t) us := rfl
    simp only [List.cons_append, gain, ih, er]
    ring

/-- An account that does not call the pool loses nothing to it. -/
theorem gain_idle {me v : Addr} {s : Sys} (hv : v ≠ me) (us : List Tx) (hs : SysInv me s) (hu : ∀ t ∈ us, Possible me t)
    (hc : ∀ t ∈ us, caller t ≠ some v) {p : State} (hp : s.pool = some p) {tok : Addr} (htok : IsPoolToken p tok) :
    0 ≤ gain me {v} tok s us := by
  induction us generalizing s p with
  | nil => simp [gain]
  | cons t us ih =>
    have ht := hu t (by simp)
    obtain ⟨p1, h1, eA, eB, -, -, -⟩ := run_pool [t] hs (by simpa using ht) hp
    have h1 : (exec me s t).pool = some p1 := h1
    have htok1 : IsPoolToken p1 tok := by unfold IsPoolToken at *; rw [eA, eB]; exact htok
    have ih := ih (exec_keeps ht hs) (fun t' h' => hu t' (by simp [h'])) (fun t' h' => hc t' (by simp [h'])) h1 htok1
    simp only [gain, Finset.sum_singleton]
    cases t with
    | token c tk op => simpa [isPoolCall] using ih
    | pool c k =>
      have := (exec_flows hs ht hp htok).2 v hv (hc _ (by simp))
      simp only [isPoolCall, if_true]
      omega

/-- **C124** The limit of a swap bounds what others can gain from it.  An account that makes one accepted
swap, of `x` units for at least `M` units, and calls the pool for nothing else: if the others do not end up
with less of the token sold, they gain at most what `x` buys at the constant product price in the starting
reserves, less `M`, up to `k` parts in `m + 1` of the starting reserve. -/
theorem C124_limit {me : Addr} {s : Sys} (h0 : Genesis me s) (ts us vs : List Tx)
    {c : Ctx} {v offer : Addr} {x M : Int} {ms mf : Option Int} {dl : Option Nat}
    (ht : ∀ t ∈ ts, Possible me t) (hu : ∀ t ∈ us, Possible me t) (hw : ∀ t ∈ vs, Possible me t)
    (hcme : c.auth me = false) {m : Int} (hm : 0 ≤ m)
    (hfl : SwapsLeave me m (run me s ts) (us ++ .pool c (.swap v offer x (some M) ms dl mf) :: vs))
    {S : Finset Addr} (hS : me ∉ S) (hvS : v ∉ S) (hvme : v ≠ me)
    (hc : ∀ t ∈ us ++ vs, ∀ a, caller t = some a → a ∈ S)
    {p p' : State} (hp : (run me s ts).pool = some p)
    (hok : ∃ s', step me (run me s (ts ++ us)) (.pool c (.swap v offer x (some M) ms dl mf)) = .ok s')
    (hp' : (run me s (ts ++ (us ++ .pool c (.swap v offer x (some M) ms dl mf) :: vs))).pool = some p')
    (hpos : 0 < p.total) (hT : p.total ≤ p'.total)
    (hgift : ∀ tok, IsPoolToken p tok → (run me s ts).led.bal tok me +
      given me tok (run me s ts) (us ++ .pool c (.swap v offer x (some M) ms dl mf) :: vs) ≤ reserve p tok)
    {A B k go ga : Int} (hA : A = reserve p offer) (hB : B = reserve p (other p offer))
    (hk : k = us.countP isSwap + 1 + vs.countP isSwap)
    (hgo : go = gain me S offer (run me s ts) (us ++ .pool c (.swap v offer x (some M) ms dl mf) :: vs))
    (hga : ga = gain me S (other p offer) (run me s ts) (us ++ .pool c (.swap v offer x (some M) ms dl mf) :: vs)) :
    IsPoolToken p offer ∧ (0 ≤ go → (A + x) * (M + ga) * (m + 1) ≤ B * x * (m + 1) + A * B * k) := by
  set t : Tx := .pool c (.swap v offer x (some M) ms dl mf) with htd
  have hI := run_keeps ts ht (genesis_inv h0)
  have htp : Possible me t := ⟨hcme, trivial⟩
  obtain ⟨q, hq, qA, qB, -⟩ := run_pool us hI hu hp
  have hI2 := run_keeps us hu hI
  obtain ⟨q2, hq2, q2A, q2B, -⟩ := run_pool [t] hI2 (by simpa using htp) hq
  have hq2 : (exec me (run me (run me s ts) us) t).pool = some q2 := hq2
  have hI3 := exec_keeps htp hI2
  -- the trade itself
  obtain ⟨s', hs'⟩ := hok
  rw [run_append] at hs'
  have hex : exec me (run me (run me s ts) us) t = s' := by unfold exec; rw [hs']
  have hs2 := hs'
  simp only [htd, step, bind_ok, hq, loaded, ok_inj] at hs2
  obtain ⟨_, rfl, ⟨p1, L1, ret⟩, hsw, he⟩ := hs2
  obtain ⟨rate, lim, r, -, -, -, -, h5, h6, -, -, h9, h10, h11, -, -, h14, -⟩ := swap_inv hsw hcme (hI2.pool q hq).distinct.1
  have hoff : IsPoolToken p offer := by unfold IsPoolToken at *; rw [← qA, ← qB]; exact h5
  have eoth : other q offer = other p offer := by unfold other; rw [qA, qB]
  rw [eoth] at h6 h14
  have hth : IsPoolToken p (other p offer) := by unfold IsPoolToken other; split <;> simp
  have hq0 := quote_core h9
  have c0 : 0 ≤ r.commission := by have := hq0.2.2.2.2.1; have := hq0.2.2.2.2.2.1; omega
  have hret : M ≤ r.ret := by rw [← h10]; exact h11 M rfl
  have hled : s'.led = L1 := by rw [← he]
  have h14 : ∀ t a, L1.bal t a = _ := h14
  simp only [List.map_cons, List.map_nil, List.sum_cons, List.sum_nil, add_zero, Flow.delta] at h14
  have tr : ∀ {tok}, IsPoolToken p tok → IsPoolToken q tok ∧ IsPoolToken q2 tok := by
    intro tok h; unfold IsPoolToken at *; rw [q2A, q2B, qA, qB]; exact ⟨h, h⟩
  have hidle : ∀ t' ∈ us ++ vs, caller t' ≠ some v := fun t' h' e => hvS (hc t' h' v e)
  have part : ∀ tok, IsPoolToken p tok → ∃ d : Int, d = L1.bal tok v - (run me (run me s ts) us).led.bal tok v ∧
      d ≤ gain me {v} tok (run me s ts) (us ++ t :: vs) := by
    intro tok htok
    refine ⟨_, rfl, ?_⟩
    rw [gain_append]
    simp only [gain, Finset.sum_singleton]
    have g1 := gain_idle hvme us hI hu (fun t' h' => hidle t' (by simp [h'])) hp htok
    have g2 := gain_idle hvme vs hI3 hw (fun t' h' => hidle t' (by simp [h'])) hq2 (tr htok).2
    rw [hex] at g2 ⊢
    rw [hled]
    simp only [htd, isPoolCall, if_true]
    rw [htd] at hex
    omega
  obtain ⟨d1, e1, l1⟩ := part offer hoff
  obtain ⟨d2, e2, l2⟩ := part _ hth
  have i1 : -x ≤ d1 := by
    rw [e1, h14]
    simp only [h6, false_and, if_false, hvme.symm, and_false, true_and, if_true]
    omega
  have i2 : M ≤ d2 := by
    rw [e2, h14]
    simp only [h6.symm, false_and, if_false, hvme.symm, and_false, true_and, if_true]
    split <;> omega
  -- the bound for what really happened to the trader
  refine ⟨hoff, fun h => ?_⟩
  have hall : ∀ t' ∈ us ++ t :: vs, Possible me t' := by
    intro t' h'
    rcases List.mem_append.1 h' with h' | h'
    · exact hu t' h'
    · rcases List.mem_cons.1 h' with rfl | h'
      · exact htp
      · exact hw t' h'
  have hcall : ∀ t' ∈ us ++ t :: vs, ∀ a, caller t' = some a → a ∈ ({v} : Finset Addr) ∨ a ∈ S := by
    intro t' h' a ha
    rcases List.mem_append.1 h' with h' | h'
    · exact .inr (hc t' (by simp [h']) a ha)
    · rcases List.mem_cons.1 h' with rfl | h'
      · rw [htd] at ha
        simp only [caller, Option.some.injEq] at ha
        exact .inl (by simp [ha])
      · exact .inr (hc t' (by simp [h']) a ha)
  have hk' : k = ((us ++ t :: vs).countP isSwap : Nat) := by
    rw [hk, List.countP_append, List.countP_cons_of_pos (by rw [htd]; rfl)]
    push_cast; ring
  have hV : me ∉ ({v} : Finset Addr) := by simp [hvme.symm]
  have hd : Disjoint ({v} : Finset Addr) S := by simpa using hvS
  obtain ⟨m1, m2, m3⟩ := sandwich_core h0 ts _ ht hall hm hfl hV hS hd hcall hp hp' hpos hT hoff hgift hA hB hk'
    (neg_neg (gain me {v} offer (run me s ts) (us ++ t :: vs))) rfl hgo hga
  have : A * B * (m + 1 - k) ≤ (A + x) * (B - M - ga) * (m + 1) :=
    m1.trans (mul_le_mul_of_nonneg_right (mul_le_mul (by omega) (by omega) m3 (by omega)) (by omega))
  linarith

/-- account 2 buys before the trade of account 1 .. -/
def exBefore : List Tx := [.pool (by' 2) (.swap 2 10 300000 none none none none)]
/-- .. which accepts any price down to half of the one it saw .. -/
def exTrade : Tx := .pool (by' 1) (.swap 1 10 50000 (some 50000) none none none)
/-- .. and sells afterwards -/
def exAfter : List Tx := [.pool (by' 2) (.swap 2 11 428000 none none none none)]
/-- the pool with reserves of 1000000 and 2000000 -/
def exPoolStart : Sys := run 100 exStart (exHist.take 2)

theorem exPossible : ∀ t ∈ exBefore ++ exTrade :: exAfter, Possible 100 t := by
  intro t ht
  simp [exBefore, exTrade, exAfter] at ht
  rcases ht with rfl | rfl | rfl <;> simp [Possible, Tx.ctx, Ctx.auth, by']

theorem exLeaves : SwapsLeave 100 999999 exPoolStart (exBefore ++ exTrade :: exAfter) := by
  have hd : ∀ s : Sys, (match s.pool with | none => true | some p => decide (999999 ≤ p.resA ∧ 999999 ≤ p.resB)) = true →
      ∀ p, s.pool = some p → (999999 : Int) ≤ p.resA ∧ (999999 : Int) ≤ p.resB := by
    intro s h p hp
    rw [hp] at h
    exact of_decide_eq_true h
  exact ⟨fun _ => hd _ (by decide +kernel), fun _ => hd _ (by decide +kernel), fun _ => hd _ (by decide +kernel), trivial⟩

/-- A sandwich that pays: account 2 ends with 1689 of the token sold and 32155 of the other token more, and the
trade brings 56811 instead of 94954. -/
example : (gain 100 {2} 10 exPoolStart (exBefore ++ exTrade :: exAfter), gain 100 {2} 11 exPoolStart (exBefore ++ exTrade :: exAfter),
      gain 100 {1} 10 exPoolStart (exBefore ++ exTrade :: exAfter), gain 100 {1} 11 exPoolStart (exBefore ++ exTrade :: exAfter)) =
      (1689, 32155, -50000, 56811) ∧
    (exPoolStart.pool.map (fun p => (simulateSwap p 10 50000).toOption.map Prod.fst) = some (some 94954)) ∧
    (∀ tok ∈ [10, 11], exPoolStart.led.bal tok 100 + given 100 tok exPoolStart (exBefore ++ exTrade :: exAfter) =
      if tok = 10 then 1000000 else 2000000) := by
  refine ⟨by decide +kernel, by decide +kernel, by decide +kernel⟩

/-- All that `C124_limit` asks for holds of it, and the bound says: 32155 is at most 95238 - 50000 and less than
eight units of rounding. -/
example : ∃ A B : Int, A = 1000000 ∧ B = 2000000 ∧ (A + 50000) * (50000 + 32155) * (999999 + 1) ≤ B * 50000 * (999999 + 1) + A * B * 3 := by
  obtain ⟨p, hp⟩ : ∃ p, (run 100 exStart (exHist.take 2)).pool = some p := Option.isSome_iff_exists.1 (by decide +kernel)
  obtain ⟨p', hp'⟩ : ∃ p', (run 100 exStart (exHist.take 2 ++ (exBefore ++ exTrade :: exAfter))).pool = some p' :=
    Option.isSome_iff_exists.1 (by decide +kernel)
  have e : (run 100 exStart (exHist.take 2)).pool.map (fun p => (p.cfg.tokenA, p.cfg.tokenB, p.resA, p.resB, p.total)) =
      some (10, 11, 1000000, 2000000, 1414213) := by decide +kernel
  have e' : (run 100 exStart (exHist.take 2 ++ (exBefore ++ exTrade :: exAfter))).pool.map (fun p => p.total) = some 1414213 := by
    decide +kernel
  rw [hp] at e
  rw [hp'] at e'
  simp only [Option.map_some, Option.some.injEq, Prod.mk.injEq] at e e'
  obtain ⟨e1, e2, e3, e4, e5⟩ := e
  have hs : ∃ s', step 100 (run 100 exStart (exHist.take 2 ++ exBefore)) exTrade = .ok s' := by
    have : (match step 100 (run 100 exStart (exHist.take 2 ++ exBefore)) exTrade with | .ok _ => true | .error _ => false) = true := by
      decide +kernel
    revert this
    cases step 100 (run 100 exStart (exHist.take 2 ++ exBefore)) exTrade with
    | ok s' => exact fun _ => ⟨s', rfl⟩
    | error _ => simp
  have key := C124_limit (me := 100) (S := {2}) exStart_genesis (exHist.take 2) exBefore exAfter
    (c := by' 1) (v := 1) (offer := 10) (x := 50000) (M := 50000) (ms := none) (mf := none) (dl := none)
    (fun t h => exHist_possible t (List.mem_of_mem_take h)) (fun t h => exPossible t (by simp [h])) (fun t h => exPossible t (by simp [h]))
    (by decide) (m := 999999) (by decide) exLeaves (by decide) (by decide) (by decide)
    (fun t h a ha => by
      simp [exBefore, exAfter] at h
      rcases h with rfl | rfl <;> simp [caller] at ha <;> simp [ha])
    hp hs hp' (by rw [e5]; decide) (by rw [e5, e']) (by
      intro tok htok
      rcases htok with h | h
      · rw [h, e1]
        simp only [reserve, e1, if_true, e3]
        decide +kernel
      · rw [h, e2]
        simp only [reserve, e1, e2, e3, e4]
        decide +kernel) rfl rfl (k := 3) (by decide) (go := 1689) (by decide +kernel) (ga := 32155)
      (by simp only [other, e1, e2, if_true]; decide +kernel)
  have key := key.2 (by decide)
  refine ⟨1000000, 2000000, rfl, rfl, ?_⟩
  simp only [reserve, other, e1, e2, e3, e4] at key
  exact key

end Phoenix.Props.Sandwich
