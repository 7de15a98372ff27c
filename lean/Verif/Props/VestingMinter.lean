import Verif.Spec.VestingMinter
import Verif.Props.Vesting
/-! Property C160: what the vesting contract reports about its minter and about single schedules. -/
namespace Phoenix.Props.VestingMinter
open Phoenix Phoenix.Vesting Phoenix.Curve Phoenix.Vesting.Spec Phoenix.Props

/-- the books of the minter: the account named, the capacity granted and the amount minted since -/
def Books (s : Sys) (who : Option Addr) (g : Nat) (x : Int) : Prop :=
  match s.vest.bind State.minter with
  | some m => who = some m.address ∧ (m.capacity : Int) = g - x
  | none => who = none ∧ g = 0 ∧ x = 0

theorem books_run {me : Addr} (ts : List Tx) {s : Sys} {who : Option Addr} {g : Nat} {x : Int} (h : Books s who g x) :
    Books (Vesting.run me s ts) (lastNamed me who s ts) (lastGrant me g s ts) (mintedSince me x s ts) := by
  induction ts generalizing s who g x with
  | nil => exact h
  | cons t ts ih =>
    rw [Vesting.run_cons, lastNamed, lastGrant, mintedSince]
    refine ih ?_
    unfold Vesting.exec names grants mints
    cases e : Vesting.step me s t with
    | error _ =>
      cases t with
      | token => exact h
      | vest c k =>
        cases k with
        | init a t m mi => cases mi <;> exact h
        | _ => exact h
    | ok s' =>
      cases t with
      | token c tok op =>
        simp only [Vesting.step, bind_ok, ok_inj] at e
        obtain ⟨L, _, rfl⟩ := e
        exact h
      | vest c k =>
        cases k with
        | init a t m mi =>
          simp only [Vesting.step, bind_ok, ok_inj] at e
          obtain ⟨v, hv, rfl⟩ := e
          obtain ⟨hn, rfl⟩ := init_ok hv
          cases mi with
          | none => simpa [Books, hn] using h
          | some m => simp [Books]
        | create l =>
          simp only [Vesting.step, bind_ok, ok_inj, loaded_ok] at e
          obtain ⟨v, hv, ⟨v', L'⟩, hk, rfl⟩ := e
          have hm : v'.minter = v.minter := by
            obtain ⟨-, -, -, T, h4, -⟩ := create_inv hk
            exact createLoop_minter h4
          simpa [Books, hv, hm] using h
        | claim b i =>
          simp only [Vesting.step, bind_ok, ok_inj, loaded_ok] at e
          obtain ⟨v, hv, ⟨v', L'⟩, hk, rfl⟩ := e
          obtain ⟨-, y, n, hx, -, -, rfl, -⟩ := claim_inv hk
          simpa [Books, hv, putInfo] using h
        | burn b n =>
          simp only [Vesting.step, bind_ok, ok_inj, loaded_ok] at e
          obtain ⟨v, hv, L', hk, rfl⟩ := e
          simpa [Books, hv] using h
        | mint b y =>
          simp only [Vesting.step, bind_ok, ok_inj, loaded_ok] at e
          obtain ⟨v, hv, ⟨v', L'⟩, hk, rfl⟩ := e
          obtain ⟨_, hy, m, hm, rfl, hle, rfl, _⟩ := mint_inv hk
          simp only [Books, hv, hm, Option.bind_some] at h ⊢
          refine ⟨h.1, ?_⟩
          have := h.2
          omega
        | updateMinter b n =>
          simp only [Vesting.step, bind_ok, ok_inj, loaded_ok] at e
          obtain ⟨v, hv, v', hk, rfl⟩ := e
          obtain ⟨_, _, rfl⟩ := updateMinter_ok hk
          simp only [Books, hv, Option.bind_some] at h ⊢
          refine ⟨trivial, ?_⟩
          cases hm : v.minter with
          | none => rw [hm] at h; simp [capacity, hm, h.2.1, h.2.2]
          | some m => rw [hm] at h; simp only [capacity, hm]; exact h.2
        | updateCapacity b n =>
          simp only [Vesting.step, bind_ok, ok_inj, loaded_ok] at e
          obtain ⟨v, hv, v', hk, rfl⟩ := e
          obtain ⟨_, _, m, hm, rfl⟩ := updateCapacity_ok hk
          simp only [Books, hv, hm, Option.bind_some] at h ⊢
          exact ⟨h.1, by omega⟩

/-- **C160** `query_minter` reports the account most recently named as minter, and as its capacity
what was granted last less what was minted since.  It fails exactly if nobody was ever named. -/
theorem C160_minter {me : Addr} {s : Sys} (h0 : Genesis me s) (ts : List Tx) :
    (∀ m, queryMinter (Vesting.run me s ts) = .ok m ↔
      lastNamed me none s ts = some m.address ∧ (m.capacity : Int) = lastGrant me 0 s ts - mintedSince me 0 s ts) ∧
    (queryMinter (Vesting.run me s ts) = .error (.code 3) ↔ lastNamed me none s ts = none) := by
  have h : Books (Vesting.run me s ts) (lastNamed me none s ts) (lastGrant me 0 s ts) (mintedSince me 0 s ts) :=
    books_run ts (by simp [Books, h0.1])
  unfold Books at h
  unfold queryMinter needMinter
  cases hv : (Vesting.run me s ts).vest with
  | none => rw [hv] at h; simp only [Option.bind_none] at h; simp [h.1]
  | some v =>
    rw [hv] at h
    simp only [Option.bind_some] at h
    cases hm : v.minter with
    | none => rw [hm] at h; simp [h.1, hm]
    | some k =>
      rw [hm] at h
      simp only [hm]
      refine ⟨fun m => ⟨?_, ?_⟩, ?_⟩
      · intro e; cases e; exact h
      · rintro ⟨e1, e2⟩
        rw [h.1] at e1
        simp only [Option.some.injEq] at e1
        obtain ⟨a, n⟩ := k; obtain ⟨b, q⟩ := m
        simp only at e1 e2 h
        have : n = q := by have := h.2; omega
        subst e1; subst this; rfl
      · simp [h.1]

/-- **C160** What was minted since the last grant never exceeds it, and nothing at all can be minted
while nobody has been named. -/
theorem C160_within_grant {me : Addr} {s : Sys} (h0 : Genesis me s) (ts : List Tx) :
    mintedSince me 0 s ts ≤ lastGrant me 0 s ts ∧
    (lastNamed me none s ts = none → ∀ c a y s', Vesting.step me (Vesting.run me s ts) (.vest c (.mint a y)) ≠ .ok s') := by
  have h : Books (Vesting.run me s ts) (lastNamed me none s ts) (lastGrant me 0 s ts) (mintedSince me 0 s ts) :=
    books_run ts (by simp [Books, h0.1])
  generalize Vesting.run me s ts = S at h
  unfold Books at h
  cases hm : S.vest.bind State.minter with
  | none =>
    rw [hm] at h
    refine ⟨by rw [h.2.1, h.2.2]; simp, fun _ c a y s' e => ?_⟩
    simp only [Vesting.step, bind_ok, ok_inj, loaded_ok] at e
    obtain ⟨v, hv, ⟨v', L'⟩, hk, rfl⟩ := e
    obtain ⟨_, _, m, hm', _⟩ := mint_inv hk
    rw [hv, Option.bind_some, hm'] at hm
    cases hm
  | some m =>
    rw [hm] at h
    refine ⟨by have := h.2; omega, fun e => ?_⟩
    rw [h.1] at e
    cases e

/-- **C160** `query_vesting_info` answers with the entry of `query_all_vesting_info` at that place,
and with "not found" exactly beyond its end. -/
theorem C160_info {me : Addr} {s : Sys} (h0 : Genesis me s) (ts : List Tx)
    (ht : ∀ t ∈ ts, Vesting.Spec.Possible me t) {v : State} (hv : (Vesting.run me s ts).vest = some v) (a : Addr) (i : Nat) :
    (∀ x, queryInfo (Vesting.run me s ts) a i = .ok x ↔ (Vesting.queryAll v a)[i]? = some x) ∧
    (queryInfo (Vesting.run me s ts) a i = .error (.code 1) ↔ (Vesting.queryAll v a).length ≤ i) := by
  have h : (Vesting.queryAll v a)[i]? = v.sched a i := by
    have := C62_query_all_complete h0 ts ht hv a i
    rw [this]; simp [schedule?, hv]
  rw [← List.getElem?_eq_none_iff, h]
  unfold queryInfo getVesting
  rw [hv]
  cases e : v.sched a i <;> simp [e]

-- the example: account 6 may mint 500, mints 70; the admin grants 90, account 6 passes the right to 5, who mints 40
def mHist : List Tx := vExHist ++
  [.vest (vBy 8 40) (.updateCapacity 8 90), .vest (vBy 6 41) (.updateMinter 6 5), .vest (vBy 6 42) (.mint 6 10),
   .vest (vBy 5 43) (.mint 5 40)]
example : queryMinter (Vesting.run 100 vExStart mHist) = .ok ⟨5, 50⟩ ∧ lastNamed 100 none vExStart mHist = some 5 ∧
    lastGrant 100 0 vExStart mHist = 90 ∧ mintedSince 100 0 vExStart mHist = 40 ∧
    queryInfo (Vesting.run 100 vExStart mHist) 1 0 = .ok ⟨72, 1, vExSl⟩ ∧
    queryInfo (Vesting.run 100 vExStart mHist) 1 2 = .error (.code 1) ∧ queryMinter vExStart = .error (.code 3) := by decide +kernel
example : Genesis 100 vExStart ∧ ∀ t ∈ mHist, Vesting.Spec.Possible 100 t := by
  refine ⟨vExStart_genesis, fun t ht => ?_⟩
  rcases List.mem_append.mp ht with ht | ht
  · exact vExHist_possible t ht
  · simp at ht; rcases ht with rfl | rfl | rfl | rfl <;> rfl

end Phoenix.Props.VestingMinter
