import Verif.Lemmas.WorldSys
import Verif.Lemmas.StakeLive
import Verif.Props.AvailLp
import Verif.Spec.Accept
/-! When calls are accepted (helpers). -/
namespace Phoenix.World
open Phoenix Phoenix.World.Spec

variable {h : Host} {acct : Accounts} {w : World}

theorem step_map {α : Type} {r : Res α} {f : α → World} :
    (∃ w', (r >>= fun s => .ok (f s)) = Except.ok w') ↔ ∃ s, r = .ok s := by
  simp only [bind_ok, ok_inj]
  exact ⟨fun ⟨_, s, e, _⟩ => ⟨s, e⟩, fun ⟨s, e⟩ => ⟨_, s, e, rfl⟩⟩

theorem outside {c : Ctx} {k : Call} (hc : Possible acct ⟨c, k⟩) (a : Addr) : c.auth a = true ↔ Signs c a := by
  have := hc.1
  simp only at this
  simp [Ctx.auth, Signs, this]

theorem outside_ne {c : Ctx} {k : Call} (hc : Possible acct ⟨c, k⟩) {a K : Addr} (hs : Signs c a) (hK : ¬ acct K) : a ≠ K := by
  rintro rfl
  exact hK (hc.2 _ hs)

/-- balances are non-negative i128 numbers -/
def Range (L : Ledger) : Prop := ∀ t a, 0 ≤ L.bal t a ∧ L.bal t a ≤ I128_MAX

theorem Core.range (C : Core acct w) {K : Addr} (hK : ¬ acct K) : Range w.led :=
  fun t a => ⟨(C.at_ K hK).led.nonneg t a, C.typed t a⟩

theorem transfer_iff {c : Ctx} {L : Ledger} (hr : Range L) {t a b : Addr} {x : Int} (hne : a ≠ b) :
    (∃ L', L.transfer c t a b x = .ok L') ↔ c.auth a = true ∧ 0 ≤ x ∧ x ≤ L.bal t a ∧ L.bal t b + x ≤ I128_MAX := by
  constructor
  · rintro ⟨L', e⟩
    unfold Ledger.transfer at e
    rw [Ledger.call_ok] at e
    obtain ⟨t', ht, -⟩ := e
    simp only [Token.call] at ht
    rw [Token.transfer_ok] at ht
    obtain ⟨h0, h1, h2, -, h4, -⟩ := ht
    rw [upd_ne _ _ (Ne.symm hne)] at h4
    exact ⟨h0, h1, h2, h4.2⟩
  · rintro ⟨h0, h1, h2, h3⟩
    exact Stake.transfer_works h0 h1 h2 (hr t a).2 (Ne.symm hne) (hr t b).1 h3

theorem burn_iff {c : Ctx} {L : Ledger} (hr : Range L) {t a : Addr} {x : Int} :
    (∃ L', L.burn c t a x = .ok L') ↔ c.auth a = true ∧ 0 ≤ x ∧ x ≤ L.bal t a := by
  unfold Ledger.burn
  simp only [Ledger.call_ok, Token.call, Token.burn_ok]
  constructor
  · rintro ⟨L', t', ⟨h0, h1, h2, -⟩, -⟩
    exact ⟨h0, h1, h2⟩
  · rintro ⟨h0, h1, h2⟩
    refine ⟨_, _, ⟨h0, h1, h2, ?_, rfl⟩, rfl⟩
    have := (hr t a).2
    simp only [Ledger.bal] at this h2
    simp only [InI128, I128_MIN]; omega

theorem mint_iff {c : Ctx} {L : Ledger} (hr : Range L) {t a : Addr} {x : Int} :
    (∃ L', L.mint c t a x = .ok L') ↔ c.auth (L t).admin = true ∧ 0 ≤ x ∧ L.bal t a + x ≤ I128_MAX := by
  unfold Ledger.mint
  simp only [Ledger.call_ok, Token.call, Token.mint_ok]
  constructor
  · rintro ⟨L', t', ⟨h0, h1, h2, -⟩, -⟩
    exact ⟨h1, h0, h2.2⟩
  · rintro ⟨h1, h0, h2⟩
    refine ⟨_, _, ⟨h0, h1, ?_, rfl⟩, rfl⟩
    have := (hr t a).1
    simp only [Ledger.bal] at this h2
    simp only [InI128, I128_MIN]; omega

/-! ### Stake -/

theorem stake_iff {c : Ctx} {K : Addr} {k : Stake.Call} (hK : w.code K = .stake) :
    Accepts h w c (.stake K k) ↔ ∃ s, Stake.step K ⟨w.stake K, w.led⟩ (.stake c k) = .ok s := by
  simp only [Accepts, step, bind_ok, expect_ok, ok_inj]
  exact ⟨fun ⟨_, _, _, s, e, _⟩ => ⟨s, e⟩, fun ⟨s, e⟩ => ⟨_, (), hK, s, e, rfl⟩⟩

theorem pays_iff {me : Addr} {c : Ctx} {s : Stake.State} {a : Addr} (hne : a ≠ me) {l : List Addr} (hn : l.Nodup) {L : Ledger}
    (hr : Range L) :
    (∃ L', Stake.payLoop me c s a l L = .ok L') ↔
      ∀ t ∈ l, ∃ p, Stake.pending c s t (s.info a) = .ok p ∧ 0 ≤ p ∧ p ≤ L.bal t me ∧ L.bal t a + p ≤ I128_MAX := by
  constructor
  · rintro ⟨L', e⟩
    induction l generalizing L with
    | nil => simp
    | cons u l ih =>
      simp only [Stake.payLoop, bind_ok] at e
      obtain ⟨p, hp, L1, e1, e2⟩ := e
      have m : Range L1 := by
        intro t b
        have hb := (Ledger.transfer_inv e1)
        have h1 := (transfer_iff hr (Ne.symm hne)).mp ⟨_, e1⟩
        rw [hb.2.2.2.1 t b]
        have := hr t b
        have k1 := hr u me
        have k2 := hr u a
        simp only [Phoenix.Spec.Flow.delta, List.map_cons, List.map_nil, List.sum_cons, List.sum_nil]
        by_cases q1 : u = t ∧ a = b
        · obtain ⟨rfl, rfl⟩ := q1
          simp [Ne.symm hne]; omega
        · by_cases q2 : u = t ∧ me = b
          · obtain ⟨rfl, rfl⟩ := q2
            simp [hne]; omega
          · simp [q1, q2]; omega
      intro t ht
      rcases List.mem_cons.mp ht with rfl | ht
      · have h1 := (transfer_iff hr (Ne.symm hne)).mp ⟨_, e1⟩
        exact ⟨p, hp, h1.2⟩
      · obtain ⟨p', q1, q2, q3, q4⟩ := ih (List.nodup_cons.mp hn).2 m e2 t ht
        have hut : u ≠ t := by rintro rfl; exact (List.nodup_cons.mp hn).1 ht
        have hs := (Ledger.transfer_inv e1).2.2.2.1
        rw [hs t me, hs t a] at *
        simp only [Phoenix.Spec.Flow.delta, List.map_cons, List.map_nil, List.sum_cons, List.sum_nil, hut, false_and, if_false] at q3 q4
        exact ⟨p', q1, q2, by omega, by omega⟩
  · intro hp
    refine Stake.payLoop_succeeds hne hn (fun t b => (hr t b).1) (fun t ht => ?_)
    obtain ⟨p, h1, h2, h3, h4⟩ := hp t ht
    exact ⟨p, h1, h2, h3, (hr _ _).2, h4⟩

theorem stakesLoop_range {day R T : Nat} {l : List Stake.Entry} {acc y : Int} (ha : InI128 acc)
    (e : Stake.stakesLoop day R T l acc = .ok y) : InI128 y := by
  induction l generalizing acc with
  | nil => simp only [Stake.stakesLoop, ok_inj] at e; exact e ▸ ha
  | cons u l ih =>
    simp only [Stake.stakesLoop, bind_ok, addI_ok] at e
    obtain ⟨r, -, acc', ⟨h1, rfl⟩, e⟩ := e
    exact ih h1 e

theorem daysLoop_range {m hs : SMap} {st : List Stake.Entry} {l : List Nat} {acc y : Int} (ha : InI128 acc)
    (e : Stake.daysLoop m hs st l acc = .ok y) : InI128 y := by
  induction l generalizing acc with
  | nil => simp only [Stake.daysLoop, ok_inj] at e; exact e ▸ ha
  | cons d l ih =>
    simp only [Stake.daysLoop, bind_ok] at e
    obtain ⟨acc', h1, e⟩ := e
    refine ih ?_ e
    unfold Stake.dayReward at h1
    split at h1
    · split at h1
      · exact stakesLoop_range ha h1
      · rw [ok_inj] at h1; exact h1 ▸ ha
    · rw [ok_inj] at h1; exact h1 ▸ ha

theorem pending_range {c : Ctx} {s : Stake.State} {t : Addr} {i : Stake.Info} {p : Int}
    (e : Stake.pending c s t i = .ok p) : InI128 p := by
  unfold Stake.pending at e
  simp only [bind_ok] at e
  obtain ⟨m, -, e⟩ := e
  exact daysLoop_range (by decide) e

theorem asU128_small {p : Int} (hp : InI128 p) (h : (asU128 p : Int) ≤ I128_MAX) : 0 ≤ p := by
  by_contra hn
  unfold asU128 at h
  simp only [InI128, I128_MIN, I128_MAX, U128_LIM] at *
  omega

theorem queryLoop_of {c : Ctx} {s : Stake.State} {a : Addr} {l : List Addr}
    (hp : ∀ t ∈ l, ∃ p, Stake.pending c s t (s.info a) = .ok p) :
    ∃ r, Stake.queryLoop c s a l = .ok r ∧ ∀ q ∈ r, ∃ p, q.1 ∈ l ∧ Stake.pending c s q.1 (s.info a) = .ok p ∧ q.2 = asU128 p := by
  induction l with
  | nil => exact ⟨[], rfl, by simp⟩
  | cons t l ih =>
    obtain ⟨p, e⟩ := hp t List.mem_cons_self
    obtain ⟨r, e2, h2⟩ := ih (fun u hu => hp u (List.mem_cons_of_mem _ hu))
    refine ⟨(t, asU128 p) :: r, by simp only [Stake.queryLoop, e, e2]; rfl, ?_⟩
    intro q hq
    rcases List.mem_cons.mp hq with rfl | hq
    · exact ⟨p, List.mem_cons_self, e, rfl⟩
    · obtain ⟨p', k1, k2, k3⟩ := h2 q hq
      exact ⟨p', List.mem_cons_of_mem _ k1, k2, k3⟩

end Phoenix.World
