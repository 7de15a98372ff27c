import Verif.Spec.Fees
import Verif.Props.PoolSwap
import Verif.Props.PoolSys
import Verif.Props.StableSys
/-!
Property C154: what the swaps of a whole history pay to the traders and to the fee recipient.
-/
namespace Phoenix.Props.Fees
open Phoenix Phoenix.Fees

/-- The fee of one swap between two rates. -/
theorem fee_range {g c f lo hi : Int} (h : c = g * f / 10000) (g0 : 0 ≤ g) (h1 : lo ≤ f) (h2 : f ≤ hi) :
    lo * g - 9999 ≤ 10000 * c ∧ 10000 * c ≤ hi * g := by
  have a := mul_le_mul_of_nonneg_left h1 g0
  have b := mul_le_mul_of_nonneg_left h2 g0
  have e1 : g * lo = lo * g := mul_comm ..
  have e2 : g * hi = hi * g := mul_comm ..
  omega

/-- Adding up. -/
theorem add_up {lo hi P T G N p t g n : Int}
    (h : G = P + T ∧ 0 ≤ P ∧ 0 ≤ T ∧ lo * (P + T) - 9999 * N ≤ 10000 * T ∧ 10000 * T ≤ hi * (P + T))
    (k : g = p + t ∧ 0 ≤ p ∧ 0 ≤ t ∧ lo * (p + t) - 9999 * n ≤ 10000 * t ∧ 10000 * t ≤ hi * (p + t)) :
    g + G = (p + P) + (t + T) ∧ 0 ≤ p + P ∧ 0 ≤ t + T ∧ lo * ((p + P) + (t + T)) - 9999 * (n + N) ≤ 10000 * (t + T) ∧
      10000 * (t + T) ≤ hi * ((p + P) + (t + T)) := by
  obtain ⟨h1, h4, h5, h2, h3⟩ := h
  obtain ⟨k1, k4, k5, k2, k3⟩ := k
  have e1 : lo * ((p + P) + (t + T)) = lo * (P + T) + lo * (p + t) := by ring
  have e2 : hi * ((p + P) + (t + T)) = hi * (P + T) + hi * (p + t) := by ring
  rw [e1, e2]
  omega

/-- What one swap pays of a token it does not sell, to the trader and to the fee recipient. -/
theorem of_flows {L L' : Ledger} {offer o X sender me R : Addr} {amount ret com : Int}
    (h : Spec.Settles L L' [⟨offer, sender, me, amount⟩, ⟨o, me, sender, ret⟩, ⟨o, me, R, com⟩])
    (hX : offer ≠ X) (h1 : sender ≠ me) (h2 : sender ≠ R) (h3 : R ≠ me) :
    gain L L' X sender = (if o = X then ret else 0) ∧ gain L L' X R = (if o = X then com else 0) := by
  have e1 := h X sender
  have e2 := h X R
  simp only [List.map_cons, List.map_nil, List.sum_cons, List.sum_nil, Spec.Flow.delta, hX, false_and, if_false,
    h1.symm, h2, h2.symm, h3.symm, and_false] at e1 e2
  unfold gain
  constructor
  · rw [e1]; split <;> simp_all
  · rw [e2]; split <;> simp_all

section pool
open Pool

/-- One transaction. -/
theorem one {me : Addr} {s s' : Sys} {t : Tx} (hs : SysInv me s) (ht : Spec.Possible me t) {X R : Addr} {lo hi : Int}
    (hR : R ≠ me) (hb : ∀ a, buyer X t = some a → a ≠ R)
    (hc : Spec.isSwap t = true → ∀ p, s.pool = some p →
      p.cfg.feeRecipient = R ∧ lo ≤ p.cfg.totalFeeBps ∧ p.cfg.totalFeeBps ≤ hi)
    (h : step me s t = .ok s') :
    let p := match buyer X t with | some a => gain s.led s'.led X a | none => 0
    let f := match buyer X t with | some _ => gain s.led s'.led X R | none => 0
    let g := match buyer X t, s.pool, s'.pool with
      | some _, some p, some p' => Spec.reserve p X - Spec.reserve p' X
      | _, _, _ => 0
    let n : Int := match buyer X t with | some _ => 1 | none => 0
    g = p + f ∧ 0 ≤ p ∧ 0 ≤ f ∧ lo * (p + f) - 9999 * n ≤ 10000 * f ∧ 10000 * f ≤ hi * (p + f) := by
  intro p f g n
  cases hbu : buyer X t with
  | none => simp [p, f, g, n, hbu]
  | some a =>
    have hne := hb a hbu
    cases t with
    | token c tok op => simp [buyer] at hbu
    | pool c k =>
      cases k with
      | swap sender offer amount mo ms dl mf =>
        simp only [buyer] at hbu
        split at hbu
        · simp at hbu
        rename_i hX
        simp only [Option.some.injEq] at hbu
        subst hbu
        have hself : c.auth me = false := ht.1
        simp only [step, bind_ok, ok_inj, Prod.exists] at h
        obtain ⟨q, hq, q', L', ret, hsw, rfl⟩ := h
        have hq' : s.pool = some q := by
          unfold loaded at hq
          split at hq
          · rename_i x hx; rw [hx]; simpa using hq
          · simp at hq
        have hP := hs.pool q hq'
        obtain ⟨com, e, c0, r0, hpt, hau, -, hset, -, hr1, hr2, -, hcfg, -⟩ := C01_swap_exact hsw hself hP.distinct.1
        obtain ⟨hrec, l1, l2⟩ := hc rfl q hq'
        rw [hrec] at hset
        have hsm : sender ≠ me := by rintro rfl; rw [hau] at hself; simp at hself
        obtain ⟨g1, g2⟩ := of_flows hset hX hsm hne hR
        have hbb : buyer X (.pool c (.swap sender offer amount mo ms dl mf)) = some sender := by simp [buyer, hX]
        simp only [p, f, g, n, hbb, hq', g1, g2]
        by_cases ho : Spec.other q offer = X
        · obtain ⟨b1, b2⟩ := fee_range e (by omega) l1 l2
          simp only [if_pos ho]
          rw [ho] at hr2
          show Spec.reserve q X - Spec.reserve q' X = ret + com ∧ _
          refine ⟨by omega, r0, c0, by omega, by omega⟩
        · simp only [ho, if_false]
          have e1 : ∀ z : State, z.cfg = q.cfg → Spec.reserve z X = 0 := by
            intro z hz
            unfold Spec.reserve
            rw [hz]
            have hA : X ≠ q.cfg.tokenA := by
              rintro rfl
              rcases hpt with h | h
              · exact hX h
              · exact ho (by simp [Spec.other, h, hP.distinct.1.symm])
            have hB : X ≠ q.cfg.tokenB := by
              rintro rfl
              rcases hpt with h | h
              · exact ho (by simp [Spec.other, h])
              · exact hX h
            simp [hA, hB]
          rw [e1 q rfl, e1 q' hcfg]
          norm_num
      | _ => simp [buyer] at hbu

/-- Whole histories, from any state of the invariant. -/
theorem all {me X R : Addr} {lo hi : Int} (hR : R ≠ me) : ∀ (us : List Tx) {s : Sys}, SysInv me s →
    (∀ t ∈ us, Spec.Possible me t) → (∀ t ∈ us, ∀ a, buyer X t = some a → a ≠ R) → Charges me R lo hi s us →
    given me X s us = paid me X s us + tips me X R s us ∧ 0 ≤ paid me X s us ∧ 0 ≤ tips me X R s us ∧
      lo * (paid me X s us + tips me X R s us) - 9999 * buys me X s us ≤ 10000 * tips me X R s us ∧
      10000 * tips me X R s us ≤ hi * (paid me X s us + tips me X R s us)
  | [], _, _, _, _, _ => by simp [given, paid, tips, buys, total]
  | t :: us, s, hs, hp, hb, hc => by
    have ih := all hR us (exec_keeps (hp t (by simp)) hs) (fun u hu => hp u (by simp [hu]))
      (fun u hu => hb u (by simp [hu])) hc.2
    cases h : step me s t with
    | error e =>
      have e1 : exec me s t = s := by simp [exec, h]
      rw [e1] at ih
      simpa [given, paid, tips, buys, total, h] using ih
    | ok s' =>
      have e1 : exec me s t = s' := by simp [exec, h]
      rw [e1] at ih
      have k := one hs (hp t (by simp)) hR (hb t (by simp)) hc.1 h
      have := add_up ih k
      have e : ∀ f, total (step me) f s (t :: us) = f s t s' + total (step me) f s' us := fun f => by simp [total, h]
      unfold given paid tips buys at this ⊢
      rw [e, e, e, e]
      exact this

/-- **C154** Over any history of a constant product pool in which the fee stays between `lo` and `hi` basis points
and goes to one recipient (who does not trade): everything the pool gave of a token in swaps went to the traders or to
the recipient; the recipient got at most the part `hi`, and at least the part `lo` less one unit per swap. -/
theorem C154_fees {me : Addr} {s : Sys} (h0 : Spec.Genesis me s) (ts us : List Tx) (ht : ∀ t ∈ ts, Spec.Possible me t)
    (hu : ∀ t ∈ us, Spec.Possible me t) {X R : Addr} {lo hi : Int} (hR : R ≠ me)
    (hb : ∀ t ∈ us, ∀ a, buyer X t = some a → a ≠ R) (hc : Charges me R lo hi (run me s ts) us) :
    let s := run me s ts
    given me X s us = paid me X s us + tips me X R s us ∧ 0 ≤ paid me X s us ∧ 0 ≤ tips me X R s us ∧
      lo * (paid me X s us + tips me X R s us) - 9999 * buys me X s us ≤ 10000 * tips me X R s us ∧
      10000 * tips me X R s us ≤ hi * (paid me X s us + tips me X R s us) :=
  all hR us (run_keeps ts ht (genesis_inv h0)) hu hb hc

/-- Without the admin's signature fee and recipient stay. -/
theorem charges_of {me : Addr} {s : Sys} (h0 : Spec.Genesis me s) (ts : List Tx) (ht : ∀ t ∈ ts, Spec.Possible me t)
    {p : State} (hp : (run me s ts).pool = some p) : ∀ (us vs : List Tx), (∀ t ∈ us, Spec.Possible me t) →
    (∀ t ∈ vs, Spec.Possible me t) → (∀ t ∈ us, t.ctx.auth p.admin = false) → (∀ t ∈ vs, t.ctx.auth p.admin = false) →
    Charges me p.cfg.feeRecipient p.cfg.totalFeeBps p.cfg.totalFeeBps (run me s (ts ++ us)) vs
  | _, [], _, _, _, _ => trivial
  | us, v :: vs, hu, hv, au, av => by
    refine ⟨fun _ q hq => ?_, ?_⟩
    · obtain ⟨e, -, -⟩ := C17_only_admin_changes h0 ts us ht hu hp hq au
      rw [e]
      exact ⟨rfl, le_refl _, le_refl _⟩
    · have := charges_of h0 ts ht hp (us ++ [v]) vs
        (fun t h => by
          rcases List.mem_append.mp h with h | h
          · exact hu t h
          · rw [List.mem_singleton.mp h]; exact hv v (by simp))
        (fun t h => hv t (by simp [h]))
        (fun t h => by
          rcases List.mem_append.mp h with h | h
          · exact au t h
          · rw [List.mem_singleton.mp h]; exact av v (by simp))
        (fun t h => av t (by simp [h]))
      rw [← List.append_assoc] at this
      rw [run_append] at this
      simpa [run] using this

/-- **C154** While the admin signs nothing, the recipient gets the configured part of what the pool gives in swaps,
exactly up to less than one unit per swap. -/
theorem C154_fees_exact {me : Addr} {s : Sys} (h0 : Spec.Genesis me s) (ts us : List Tx) (ht : ∀ t ∈ ts, Spec.Possible me t)
    (hu : ∀ t ∈ us, Spec.Possible me t) {p : State} (hp : (run me s ts).pool = some p)
    (hno : ∀ t ∈ us, t.ctx.auth p.admin = false) (hR : p.cfg.feeRecipient ≠ me) {X : Addr}
    (hb : ∀ t ∈ us, ∀ a, buyer X t = some a → a ≠ p.cfg.feeRecipient) :
    let s := run me s ts
    p.cfg.totalFeeBps * given me X s us - 9999 * buys me X s us ≤ 10000 * tips me X p.cfg.feeRecipient s us ∧
      10000 * tips me X p.cfg.feeRecipient s us ≤ p.cfg.totalFeeBps * given me X s us := by
  have hc := charges_of h0 ts ht hp [] us (by simp) hu (by simp) hno
  rw [List.append_nil] at hc
  obtain ⟨a, -, -, b, c⟩ := C154_fees h0 ts us ht hu hR hb hc
  simp only at a b c ⊢
  rw [a]
  exact ⟨b, c⟩

/-- **C154** Nothing but swaps pays the fee recipient: any other call of the pool by somebody else leaves every balance
of an account that is not the pool and not the caller as it was, once the pool exists. -/
theorem C154_only_swaps {me : Addr} {s s' : Sys} (h0 : Spec.Genesis me s) (ts : List Tx) (ht : ∀ t ∈ ts, Spec.Possible me t)
    {p : State} (hp : (run me s ts).pool = some p) {c : Ctx} {k : Call} (hk : Spec.Possible me (.pool c k))
    (hns : Spec.isSwap (.pool c k) = false) {R : Addr} (hR : R ≠ me) (hb : R ∉ Spec.lpParties (.pool c k))
    (h : step me (run me s ts) (.pool c k) = .ok s') (X : Addr) : s'.led.bal X R = (run me s ts).led.bal X R := by
  have hself : c.auth me = false := hk.1
  have hP := (run_keeps ts ht (genesis_inv h0)).pool p hp
  have hl : ∀ {q : State}, loaded (run me s ts).pool = .ok q → q = p := by
    intro q hq
    rw [hp] at hq
    simpa [loaded, eq_comm] using hq
  cases k with
  | init i => rw [C17_init_once hp] at h; simp at h
  | swap => simp [Spec.isSwap] at hns
  | updateConfig u =>
    simp only [step, bind_ok, ok_inj] at h
    obtain ⟨_, _, _, _, rfl⟩ := h
    rfl
  | upgrade u =>
    simp only [step, bind_ok, ok_inj] at h
    obtain ⟨_, _, _, _, rfl⟩ := h
    rfl
  | provide sender dA mA dB mB cu dl =>
    have hRs : R ≠ sender := by simpa [Spec.lpParties] using hb
    simp only [step, bind_ok, ok_inj, Prod.exists] at h
    obtain ⟨q, hq, p', L', hw, rfl⟩ := h
    obtain ⟨a, b, m, lock, -, -, -, -, -, -, -, -, -, -, e, -⟩ := provide_inv hw hself (by rw [hl hq]; exact hP.distinct)
    simp [e X R, Spec.Flow.delta, hR.symm, hRs.symm]
  | withdraw sender sh mA mB dl =>
    have hRs : R ≠ sender := by simpa [Spec.lpParties] using hb
    simp only [step, bind_ok, ok_inj, Prod.exists] at h
    obtain ⟨q, hq, p', L', ra, rb, hw, rfl⟩ := h
    obtain ⟨-, -, -, -, -, -, -, -, -, -, -, -, -, e, -⟩ := withdraw_inv hw hself (by rw [hl hq]; exact hP.distinct)
    simp [e X R, Spec.Flow.delta, hR.symm, hRs.symm]

/-- the history of the example, continued: two swaps of account 2 and a deposit of account 1 -/
def more : List Tx :=
  [ .pool (by' 2) (.swap 2 10 90000 none none none none),
    .pool (by' 1) (.provide 1 (some 1000) none (some 3000) none none none),
    .pool (by' 2) (.swap 2 11 5000 none none none none),
    .pool (by' 2) (.swap 2 10 7000 none none none none) ]

theorem more_possible : ∀ t ∈ more, Spec.Possible 100 t := by
  intro t ht
  simp [more] at ht
  rcases ht with rfl | rfl | rfl | rfl <;> simp [Spec.Possible, Tx.ctx, Ctx.auth, by']

/-- the traders and the recipient of the example get this of token 11, in two swaps -/
example : paid 100 11 (run 100 exStart exHist) more = 167963 ∧ tips 100 11 7 (run 100 exStart exHist) more = 505 ∧
    buys 100 11 (run 100 exStart exHist) more = 2 ∧ given 100 11 (run 100 exStart exHist) more = 168468 := by decide +kernel

/-- the hypotheses of the theorems hold for this history -/
example : Spec.Genesis 100 exStart ∧ (∀ t ∈ exHist, Spec.Possible 100 t) ∧ (∀ t ∈ more, Spec.Possible 100 t) ∧
    (∀ t ∈ more, ∀ a, buyer 11 t = some a → a ≠ 7) ∧ (∀ t ∈ more, t.ctx.auth 8 = false ∧ t.ctx.auth 7 = false) ∧
    (∀ t ∈ more, ∀ c sp x d, t ≠ .token c 11 (.transferFrom sp 7 d x) ∧ t ≠ .token c 11 (.burnFrom sp 7 x)) ∧
    (run 100 exStart exHist).pool.map (fun p => (p.cfg.feeRecipient, p.cfg.totalFeeBps, p.admin)) = some (7, 30, 8) := by
  refine ⟨exStart_genesis, exHist_possible, more_possible, ?_, ?_, ?_, by decide +kernel⟩
  · intro t ht a ha
    simp [more] at ht
    rcases ht with rfl | rfl | rfl | rfl <;> simp [buyer] at ha <;> simp [← ha]
  · intro t ht
    simp [more] at ht
    rcases ht with rfl | rfl | rfl | rfl <;> simp [Tx.ctx, Ctx.auth, by']
  · intro t ht c sp x d
    simp [more] at ht
    rcases ht with rfl | rfl | rfl | rfl <;> simp

/-- **C154** A fee recipient who signs nothing, and on whose allowances nobody draws, ends up with all of these fees, for
every token. -/
theorem C154_recipient_collects {me : Addr} {s : Sys} (h0 : Spec.Genesis me s) (ts us : List Tx) (ht : ∀ t ∈ ts, Spec.Possible me t)
    (hu : ∀ t ∈ us, Spec.Possible me t) {p : State} (hp : (run me s ts).pool = some p) {X R : Addr} (hR : R ≠ me)
    (hsil : ∀ t ∈ us, t.ctx.auth R = false)
    (hdraw : ∀ t ∈ us, ∀ c sp x d, t ≠ .token c X (.transferFrom sp R d x) ∧ t ≠ .token c X (.burnFrom sp R x)) :
    (run me s ts).led.bal X R + tips me X R (run me s ts) us ≤ (run me s (ts ++ us)).led.bal X R := by
  induction us generalizing ts p with
  | nil => simp [tips, total]
  | cons t us ih =>
    have e1 : run me s (ts ++ [t]) = exec me (run me s ts) t := by simp [run]
    have e2 : run me s (ts ++ t :: us) = run me s ((ts ++ [t]) ++ us) := by simp
    have ht' : ∀ u ∈ ts ++ [t], Spec.Possible me u := by
      intro u h
      rcases List.mem_append.mp h with h | h
      · exact ht u h
      · rw [List.mem_singleton.mp h]; exact hu t (by simp)
    obtain ⟨p', hp', -⟩ := C17_addresses_fixed h0 ts [t] ht (fun u h => hu u (by simp [List.mem_singleton.mp h])) hp
    have ih' := ih (ts ++ [t]) ht' (fun u h => hu u (by simp [h])) hp' (fun u h => hsil u (by simp [h]))
      (fun u h => hdraw u (by simp [h]))
    rw [e2]
    cases h : step me (run me s ts) t with
    | error e =>
      have e3 : exec me (run me s ts) t = run me s ts := by simp [exec, h]
      rw [e1, e3] at ih'
      simpa [tips, total, h] using ih'
    | ok s' =>
      have e3 : exec me (run me s ts) t = s' := by simp [exec, h]
      rw [e1, e3] at ih'
      have e4 : tips me X R (run me s ts) (t :: us) =
          (match buyer X t with | some _ => gain (run me s ts).led s'.led X R | none => 0) + tips me X R s' us := by
        simp only [tips, total, h]
        cases buyer X t <;> rfl
      rw [e4]
      have hmono : (run me s ts).led.bal X R ≤ s'.led.bal X R := by
        by_contra hn
        obtain ⟨x, ⟨c, sp, -, -, hx⟩, -⟩ := C16_no_unauthorised_movement h0 ts ht h (hu t (by simp))
          (by rintro c i rfl; rw [C17_init_once hp] at h; simp at h) hR (hsil t (by simp)) X (by omega)
        rcases hx with ⟨d, rfl⟩ | rfl
        · exact (hdraw _ (by simp) c sp x d).1 rfl
        · exact (hdraw _ (by simp) c sp x 0).2 rfl
      cases hb : buyer X t with
      | none => simp only; omega
      | some a => simp only [gain]; omega

/-- **C154** A swap that pays out little pays no fee at all: the fee of each swap is rounded down on its own. -/
theorem C154_dust_is_free {me : Addr} {s s' : Sys} (h0 : Spec.Genesis me s) (ts : List Tx) (ht : ∀ t ∈ ts, Spec.Possible me t)
    {p : State} (hp : (run me s ts).pool = some p) {t : Tx} (hk : Spec.Possible me t) {X a : Addr} (hR : p.cfg.feeRecipient ≠ me)
    (hb : buyer X t = some a) (hne : a ≠ p.cfg.feeRecipient) (h : step me (run me s ts) t = .ok s')
    (hs : given me X (run me s ts) [t] * p.cfg.totalFeeBps < 10000) :
    s'.led.bal X p.cfg.feeRecipient = (run me s ts).led.bal X p.cfg.feeRecipient ∧
      s'.led.bal X a = (run me s ts).led.bal X a + given me X (run me s ts) [t] := by
  have hc : Charges me p.cfg.feeRecipient p.cfg.totalFeeBps p.cfg.totalFeeBps (run me s ts) [t] :=
    ⟨fun _ q hq => by rw [hp] at hq; cases hq; exact ⟨rfl, le_refl _, le_refl _⟩, trivial⟩
  obtain ⟨h1, -, h4, h2, h3⟩ := C154_fees h0 ts [t] ht (by simpa using hk) hR
    (X := X) (fun u hu b hb' => by
      rw [List.mem_singleton.mp hu, hb] at hb'
      cases hb'
      exact hne) hc
  rw [← h1, mul_comm p.cfg.totalFeeBps] at h3
  simp only [tips, paid, total, h, hb, gain, add_zero] at h1 h3 h4
  constructor <;> omega

/-- a small pool -/
def smallPool : List Tx :=
  [ .pool (by' 8) (.init exInit), .pool (by' 1) (.provide 1 (some 200000) none (some 100000) none none none) ]

/-- **C154** So in a small pool a patient trader pays nothing: ten sales of 650 units each, one after the other, pay no
fee at 30 basis points and bring 3150 units; the same sold at once pays a fee of 9 and brings 3139. -/
theorem C154_dust_avoids_the_fee :
    let s := run 100 exStart smallPool
    let small := List.replicate 10 (Tx.pool (by' 2) (.swap 2 10 650 none none none none))
    let big := [Tx.pool (by' 2) (.swap 2 10 6500 none none none none)]
    buys 100 11 s small = 10 ∧ tips 100 11 7 s small = 0 ∧ paid 100 11 s small = 3150 ∧
      tips 100 11 7 s big = 9 ∧ paid 100 11 s big = 3139 := by decide +kernel

/-- the first of them meets the hypotheses of `C154_dust_is_free` -/
example : let t := Tx.pool (by' 2) (.swap 2 10 650 none none none none)
    buyer 11 t = some 2 ∧ given 100 11 (run 100 exStart smallPool) [t] * 30 < 10000 ∧
      buys 100 11 (run 100 exStart smallPool) [t] = 1 ∧
      (run 100 exStart smallPool).pool.map (fun p => (p.cfg.feeRecipient, p.cfg.totalFeeBps)) = some (7, 30) := by decide +kernel

end pool

section stable
open Stable

/-- The fee inside a quote. -/
theorem fee_of_quote {now : Nat} {p : State} {a b : Side} {amount : Int} {r : Quote} (h : quote now p a b amount = .ok r)
    (hf : 0 ≤ p.cfg.totalFeeBps ∧ p.cfg.totalFeeBps ≤ 10000) :
    r.commission = (r.ret + r.commission) * p.cfg.totalFeeBps / 10000 := by
  obtain ⟨amp, x, y, a, na, nx, sx, sy, rate, hx, hy, ha, hrate, hamp, hnx, hsx, hsy, hna, hle, hg, hs, hcom⟩ := quote_inv h
  obtain ⟨er, r0, r1⟩ := bps_rate hrate hf
  obtain ⟨c1, -, -⟩ := commission_bounds hcom (by omega) r0 r1
  rw [← hg, er] at c1
  have e : (r.ret + r.commission) * (p.cfg.totalFeeBps * 10 ^ 14) = ((r.ret + r.commission) * p.cfg.totalFeeBps) * 10 ^ 14 := by ring
  have e2 : Dec.ONE = 10000 * 10 ^ 14 := by decide
  rw [e, e2, Int.mul_ediv_mul_of_pos_left _ _ (by positivity)] at c1
  exact c1

/-- One transaction. -/
theorem oneS {me : Addr} {s s' : Sys} {t : Tx} (hs : SysInv me s) (ht : Stable.Spec.Possible me t) {X R : Addr} {lo hi : Int}
    (hR : R ≠ me) (hb : ∀ a, buyerS X t = some a → a ≠ R)
    (hc : Stable.Spec.isSwap t = true → ∀ p, s.pool = some p →
      p.cfg.feeRecipient = R ∧ lo ≤ p.cfg.totalFeeBps ∧ p.cfg.totalFeeBps ≤ hi)
    (h : step me s t = .ok s') :
    let p := match buyerS X t with | some a => gain s.led s'.led X a | none => 0
    let f := match buyerS X t with | some _ => gain s.led s'.led X R | none => 0
    let g := match buyerS X t, s.pool, s'.pool with
      | some _, some p, some p' => Stable.Spec.reserve p X - Stable.Spec.reserve p' X
      | _, _, _ => 0
    let n : Int := match buyerS X t with | some _ => 1 | none => 0
    g = p + f ∧ 0 ≤ p ∧ 0 ≤ f ∧ lo * (p + f) - 9999 * n ≤ 10000 * f ∧ 10000 * f ≤ hi * (p + f) := by
  intro p f g n
  cases hbu : buyerS X t with
  | none => simp [p, f, g, n, hbu]
  | some a =>
    have hne := hb a hbu
    cases t with
    | token c tok op => simp [buyerS] at hbu
    | pool c k =>
      cases k with
      | swap sender offer amount mo ms dl mf =>
        simp only [buyerS] at hbu
        split at hbu
        · simp at hbu
        rename_i hX
        simp only [Option.some.injEq] at hbu
        subst hbu
        have hself : c.auth me = false := ht.1
        simp only [step, bind_ok, ok_inj, Prod.exists] at h
        obtain ⟨q, hq, q', L', ret, hsw, rfl⟩ := h
        have hq' : s.pool = some q := by
          unfold loaded at hq
          split at hq
          · rename_i x hx; rw [hx]; simpa using hq
          · simp at hq
        have hP := hs.pool q hq'
        obtain ⟨lim, r, -, -, hau, -, hpt, -, -, hqu, rfl, -, hms, -, hset, -, hcfg, -, hr2⟩ :=
          Stable.swap_inv hsw hself hP.distinct.1
        obtain ⟨-, r0, c0, g0, -⟩ := swap_sizes hqu hms hP.cfg.fee
        have e := fee_of_quote hqu hP.cfg.fee
        obtain ⟨hrec, l1, l2⟩ := hc rfl q hq'
        rw [hrec] at hset
        have hsm : sender ≠ me := by rintro rfl; rw [hau] at hself; simp at hself
        obtain ⟨g1, g2⟩ := of_flows hset hX hsm hne hR
        have hbb : buyerS X (.pool c (.swap sender offer amount mo ms dl mf)) = some sender := by simp [buyerS, hX]
        simp only [p, f, g, n, hbb, hq', g1, g2]
        by_cases ho : Stable.Spec.other q offer = X
        · obtain ⟨b1, b2⟩ := fee_range e (by omega) l1 l2
          simp only [if_pos ho]
          rw [ho] at hr2
          show Stable.Spec.reserve q X - Stable.Spec.reserve q' X = r.ret + r.commission ∧ _
          refine ⟨by omega, r0, c0, by omega, by omega⟩
        · simp only [ho, if_false]
          have e1 : ∀ z : State, z.cfg = q.cfg → Stable.Spec.reserve z X = 0 := by
            intro z hz
            unfold Stable.Spec.reserve
            rw [hz]
            have hA : X ≠ q.cfg.tokenA := by
              rintro rfl
              rcases hpt with h | h
              · exact hX h
              · exact ho (by simp [Stable.Spec.other, h, hP.distinct.1.symm])
            have hB : X ≠ q.cfg.tokenB := by
              rintro rfl
              rcases hpt with h | h
              · exact ho (by simp [Stable.Spec.other, h])
              · exact hX h
            simp [hA, hB]
          rw [e1 q rfl, e1 q' (by rw [hcfg])]
          norm_num
      | _ => simp [buyerS] at hbu

/-- Whole histories, from any state of the invariant. -/
theorem allS {me X R : Addr} {lo hi : Int} (hR : R ≠ me) : ∀ (us : List Tx) {s : Sys}, SysInv me s →
    (∀ t ∈ us, Stable.Spec.Possible me t) → (∀ t ∈ us, ∀ a, buyerS X t = some a → a ≠ R) → ChargesS me R lo hi s us →
    givenS me X s us = paidS me X s us + tipsS me X R s us ∧ 0 ≤ paidS me X s us ∧ 0 ≤ tipsS me X R s us ∧
      lo * (paidS me X s us + tipsS me X R s us) - 9999 * buysS me X s us ≤ 10000 * tipsS me X R s us ∧
      10000 * tipsS me X R s us ≤ hi * (paidS me X s us + tipsS me X R s us)
  | [], _, _, _, _, _ => by simp [givenS, paidS, tipsS, buysS, total]
  | t :: us, s, hs, hp, hb, hc => by
    have ih := allS hR us (exec_keeps (hp t (by simp)) hs) (fun u hu => hp u (by simp [hu]))
      (fun u hu => hb u (by simp [hu])) hc.2
    cases h : step me s t with
    | error e =>
      have e1 : exec me s t = s := by simp [exec, h]
      rw [e1] at ih
      simpa [givenS, paidS, tipsS, buysS, total, h] using ih
    | ok s' =>
      have e1 : exec me s t = s' := by simp [exec, h]
      rw [e1] at ih
      have k := oneS hs (hp t (by simp)) hR (hb t (by simp)) hc.1 h
      have := add_up ih k
      have e : ∀ f, total (step me) f s (t :: us) = f s t s' + total (step me) f s' us := fun f => by simp [total, h]
      unfold givenS paidS tipsS buysS at this ⊢
      rw [e, e, e, e]
      exact this

/-- **C154** The same for a stable pool. -/
theorem C154_stable_fees {me : Addr} {s : Sys} (h0 : Stable.Spec.Genesis me s) (ts us : List Tx)
    (ht : ∀ t ∈ ts, Stable.Spec.Possible me t) (hu : ∀ t ∈ us, Stable.Spec.Possible me t) {X R : Addr} {lo hi : Int} (hR : R ≠ me)
    (hb : ∀ t ∈ us, ∀ a, buyerS X t = some a → a ≠ R) (hc : ChargesS me R lo hi (run me s ts) us) :
    let s := run me s ts
    givenS me X s us = paidS me X s us + tipsS me X R s us ∧ 0 ≤ paidS me X s us ∧ 0 ≤ tipsS me X R s us ∧
      lo * (paidS me X s us + tipsS me X R s us) - 9999 * buysS me X s us ≤ 10000 * tipsS me X R s us ∧
      10000 * tipsS me X R s us ≤ hi * (paidS me X s us + tipsS me X R s us) :=
  allS hR us (run_keeps ts ht (Stable.genesis_inv h0)) hu hb hc

/-- the recipient of the example gets its part of two swaps, and the hypotheses hold -/
example : let s := run 100 (Props.Stable.exStart 7 7) (Props.Stable.exHist 100 20000000 20000000)
    let us := [Props.Stable.exSwap 10 1000000, Props.Stable.exSwap 11 300000, Props.Stable.exSwap 10 50000]
    paidS 100 11 s us = 1046079 ∧ tipsS 100 11 7 s us = 3147 ∧ buysS 100 11 s us = 2 ∧
      s.pool.map (fun p => (p.cfg.feeRecipient, p.cfg.totalFeeBps)) = some (7, 30) := by decide +kernel
example : Stable.Spec.Genesis 100 (Props.Stable.exStart 7 7) := Props.Stable.exStart_genesis 7 7

end stable

end Phoenix.Props.Fees
