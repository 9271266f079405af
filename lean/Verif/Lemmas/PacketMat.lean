import Verif.Lemmas.Packet1
import Verif.Lemmas.MdAll
import Verif.Model.PacketMat
import Verif.Props.Mat1

/-! The one-dimensional packet object with boundary matrices. -/

namespace Verif
open Tensor Spec Props
variable {R : Type}

theorem callKeyed_pure {K S α β : Type} [DecidableEq K] {mk : Except Err S} {call : S → α → Except Err β × S}
    {I : S → Prop} {A : α → Prop} {f : α → Except Err β}
    (h0 : ∀ s, mk = .ok s → I s) (herr : ∀ e, mk = .error e → (∀ s, ¬ I s) ∧ ∀ a, f a = .error e)
    (hcall : ∀ s a, I s → A a → (call s a).1 = f a ∧ I (call s a).2)
    {d : PMap K S} (hd : ∀ k s, d k = some s → I s) (k : K) {a : α} (ha : A a) :
    (callKeyed mk call d k a).1 = f a ∧ ∀ k' s, (callKeyed mk call d k a).2 k' = some s → I s := by
  have hset : ∀ s, I s → ∀ k' s', (d.set k (call s a).2) k' = some s' → I s' := by
    intro s hs k' s' h
    by_cases hk : k' = k
    · subst hk
      rw [PMap.set_self] at h
      cases h
      exact (hcall s a hs ha).2
    · rw [PMap.set_ne _ _ hk] at h
      exact hd k' s' h
  unfold callKeyed
  cases hk : d k with
  | some s => exact ⟨(hcall s a (hd k s hk) ha).1, hset s (hd k s hk)⟩
  | none =>
    cases hm : mk with
    | error e => exact ⟨((herr e hm).2 a).symm, hd⟩
    | ok s => exact ⟨(hcall s a (h0 s hm) ha).1, hset s (h0 s hm)⟩

section
variable [Field R] [DecidableEq R] {la : LinAlg R} {w : Wavelet R} {orth : String} {axis : Int} {md : Meta}

theorem decCall_inv1 {cfg : DecCfg R} {s t : DecState R} (hs : DecInv la cfg md 1 s) (ht : DecInv la cfg md 1 t)
    {x : Tensor R} (hx : x.md = md) :
    (decCall la cfg s x).1 = (decCall la cfg t x).1 ∧ DecInv la cfg md 1 (decCall la cfg s x).2 := by
  unfold decCall
  cases e : decInput cfg x with
  | error e' => exact ⟨rfl, hs⟩
  | ok p =>
    have hmd : p.1.md = md := by rw [← hx]; exact decInput_md (ds := p.2) e
    simp only [hmd]
    obtain ⟨k1, k2⟩ := decPrepare_inv1 hs (p.1.sizeFromEnd 1)
    obtain ⟨k3, _⟩ := decPrepare_inv1 ht (p.1.sizeFromEnd 1)
    rw [k3, ← k1]
    cases hr : decPrepare la cfg md (p.1.sizeFromEnd 1) s with
    | mk r st =>
      rw [hr] at k2
      cases r with
      | error e => exact ⟨rfl, k2⟩
      | ok u => exact ⟨rfl, k2⟩

theorem recInput_length {cfg : RecCfg R} {cs us : List (Tensor R)} {ds : List Nat} {md : Meta}
    (e : recInput cfg (Coeffs.ofList cs) = .ok (us, ds, md)) : us.length ≤ cs.length := by
  unfold recInput at e
  obtain ⟨p, e1, e⟩ := bind_ok_inv e
  obtain ⟨m, e2, e⟩ := bind_ok_inv e
  cases e
  have := preprocessCoeffs_length e1
  unfold Coeffs.toList
  refine le_trans (List.length_filterMap_le _ _) ?_
  rw [this]
  simp [Coeffs.ofList]

theorem recCall_inv1 {cfg : RecCfg R} {s t : RecState R} (hs : RecInv la cfg md s) (ht : RecInv la cfg md t)
    {a d : Tensor R} (hx : a.md = md) :
    (recCall la cfg s [a, d]).1 = (recCall la cfg t [a, d]).1 ∧ RecInv la cfg md (recCall la cfg s [a, d]).2 := by
  unfold recCall
  cases e : recInput cfg (Coeffs.ofList [a, d]) with
  | error e' => exact ⟨rfl, hs⟩
  | ok p =>
    obtain ⟨us, ds, md'⟩ := p
    have hmd : md' = md := by rw [recInput_md e]; exact hx
    subst hmd
    have hl : us.length - 1 ≤ 1 := by
      have := recInput_length e
      simp only [List.length_cons, List.length_nil] at this
      omega
    simp only
    obtain ⟨k1, k2⟩ := recPrepare_inv1 hs hl ((us.getLast?.map fun c => c.sizeFromEnd 1).getD 0 * 2)
    obtain ⟨k3, _⟩ := recPrepare_inv1 ht hl ((us.getLast?.map fun c => c.sizeFromEnd 1).getD 0 * 2)
    rw [k3, ← k1]
    cases hr : recPrepare la cfg md' (us.length - 1) ((us.getLast?.map fun c => c.sizeFromEnd 1).getD 0 * 2) s with
    | mk r st =>
      rw [hr] at k2
      cases r with
      | error e => exact ⟨rfl, k2⟩
      | ok u => exact ⟨rfl, k2⟩

theorem matDecLoop_md {mode : Option String} : ∀ (mats : List (Coo R)) (ps : List Bool) (lo : Tensor R)
    (r : Tensor R × List (Tensor R)), matDecLoop mode mats ps lo = .ok r →
    r.1.md = lo.md ∧ ∀ t ∈ r.2, t.md = lo.md
  | [], _, lo, r, h => by
    cases h
    exact ⟨rfl, by simp⟩
  | A :: mats, [], lo, r, h => by cases h
  | A :: mats, p :: ps, lo, r, h => by
    unfold matDecLoop at h
    obtain ⟨l1, e1, h⟩ := bind_ok_inv h
    obtain ⟨c, e2, h⟩ := bind_ok_inv h
    have m1 : l1.md = lo.md := by
      unfold decPad at e1
      split_ifs at e1
      · obtain ⟨u, e3, e1⟩ := bind_ok_inv e1
        obtain ⟨v, e4, e1⟩ := bind_ok_inv e1
        cases e1
        have h1 := unsqueeze1_md e3
        have h2 : 1 ≤ u.rank := by
          unfold Tensor.unsqueeze1 at e3
          split at e3
          · cases e3
          · cases e3; simp [Tensor.rank]
        show v.squeeze1.md = _
        rw [squeeze1_md, fwtPadWith_md h2 e4, h1]; rfl
      · cases e1; rfl
    have m2 : c.md = lo.md := (mmDense_md e2).trans m1
    simp only at h
    split_ifs at h
    obtain ⟨q, e5, h⟩ := bind_ok_inv h
    cases h
    obtain ⟨i1, i2⟩ := matDecLoop_md mats ps _ q e5
    have m3 : ∀ i j, (c.slice 0 i j).md = lo.md := fun i j => m2
    rw [m3] at i1 i2
    refine ⟨i1, ?_⟩
    intro t ht
    rcases List.mem_cons.mp ht with rfl | ht
    · exact m3 _ _
    · exact i2 t ht

theorem decCall_md {cfg : DecCfg R} {st : DecState R} {x : Tensor R} {vs : List (Tensor R)}
    (h : (decCall la cfg st x).1 = .ok vs) : ∀ v ∈ vs, v.md = x.md := by
  unfold decCall at h
  cases e : decInput cfg x with
  | error e' => rw [e] at h; cases h
  | ok p =>
    have hmd : p.1.md = x.md := decInput_md (ds := p.2) e
    rw [e] at h
    simp only at h
    cases hr : decPrepare la cfg p.1.md (p.1.sizeFromEnd 1) st with
    | mk r st' =>
      rw [hr] at h
      cases r with
      | error e => cases h
      | ok u =>
        simp only at h
        unfold decApply at h
        obtain ⟨q, e1, h⟩ := bind_ok_inv h
        obtain ⟨c, e2, h⟩ := bind_ok_inv h
        cases h
        obtain ⟨i1, i2⟩ := matDecLoop_md _ _ _ _ e1
        refine all_toList (postprocessCoeffs_md (md := x.md) (all_ofList.mpr ?_) e2)
        intro t ht
        obtain ⟨u, hu, rfl⟩ := List.mem_map.mp ht
        show u.md = _
        rw [List.mem_reverse, List.mem_append, List.mem_singleton] at hu
        rcases hu with hu | rfl
        · rw [i2 u hu]; exact hmd
        · rw [i1]; exact hmd

theorem cat2_md {s t u : Tensor R} {d : Nat} (h : cat2 s t d = .ok u) : u.md = s.md := by
  unfold cat2 at h
  split_ifs at h
  cases h; rfl

theorem matRecLoop_md : ∀ (ms : List (Coo R)) (his : List (Tensor R)) (lo r : Tensor R),
    matRecLoop ms lo his = .ok r → r.md = lo.md
  | ms, [], lo, r, h => by
    unfold matRecLoop at h
    cases h; rfl
  | ms, hi :: rest, lo, r, h => by
    unfold matRecLoop at h
    split_ifs at h
    obtain ⟨l, e1, h⟩ := bind_ok_inv h
    cases ms with
    | nil => cases h
    | cons M ms =>
      simp only at h
      obtain ⟨l2, e2, h⟩ := bind_ok_inv h
      obtain ⟨l3, e3, h⟩ := bind_ok_inv h
      rw [matRecLoop_md ms rest l3 r h, ← cat2_md e1, ← mmDense_md e2]
      unfold recCrop at e3
      split at e3
      · cases e3; rfl
      · simp only at e3
        split_ifs at e3 <;> (cases e3; rfl)

theorem recCall_md {cfg : RecCfg R} {st : RecState R} {cs : List (Tensor R)} {r : Tensor R}
    (hcs : ∀ c ∈ cs, c.md = md) (h : (recCall la cfg st cs).1 = .ok r) : r.md = md := by
  unfold recCall at h
  cases e : recInput cfg (Coeffs.ofList cs) with
  | error e' => rw [e] at h; cases h
  | ok p =>
    obtain ⟨us, ds, md'⟩ := p
    have hus : ∀ t ∈ us, t.md = md := by
      unfold recInput at e
      obtain ⟨p, e1, e⟩ := bind_ok_inv e
      obtain ⟨m, e2, e⟩ := bind_ok_inv e
      cases e
      exact all_toList (preprocessCoeffs_md (md := md) (all_ofList.mpr hcs) e1)
    rw [e] at h
    simp only at h
    cases hr : recPrepare la cfg md' (us.length - 1) ((us.getLast?.map fun c => c.sizeFromEnd 1).getD 0 * 2) st with
    | mk q st' =>
      rw [hr] at h
      cases q with
      | error e => cases h
      | ok u =>
        simp only at h
        unfold recApply at h
        split at h
        · cases h
        · rename_i lo his heq
          obtain ⟨r', e1, h⟩ := bind_ok_inv h
          rw [postprocessTensor_md h]
          show r'.md = _
          rw [matRecLoop_md _ _ _ _ e1]
          obtain ⟨t, ht, rfl⟩ := List.mem_map.mp (show lo ∈ us.map matT by rw [heq]; simp)
          exact hus t ht

/-! ### The backend is pure on tensors of one dtype and device -/

/-- One analysis step, by a new object. -/
def matDec1 (la : LinAlg R) (w : Wavelet R) (orth : String) (axis : Int) (t : Tensor R) :
    Except Err (List (Tensor R)) :=
  match sizeAt t axis with
  | .error e => .error e
  | .ok _ =>
    unpackPair (match decInit w (some 1) (.int axis) orth (some "zero") with
      | .error e => .error e
      | .ok s => (decObj la s t).1)

/-- One synthesis step, by a new object. -/
def matSyn1 (la : LinAlg R) (w : Wavelet R) (orth : String) (axis : Int) (ts : List (Tensor R)) :
    Except Err (Tensor R) :=
  match ts with
  | [a, d] =>
    match sizeAt a axis with
    | .error e => .error e
    | .ok _ =>
      match recInit w (.int axis) orth with
      | .error e => .error e
      | .ok s => (recObj la s [a, d]).1
  | _ => .error .valueError

/-- What all cached objects satisfy. -/
def MatInv1 (la : LinAlg R) (w : Wavelet R) (orth : String) (axis : Int) (md : Meta) (c : MatCache1 R) : Prop :=
  (∀ k s, c.decs k = some s → ∃ st0, decInit w (some 1) (.int axis) orth (some "zero") = .ok (s.1, st0) ∧
    DecInv la s.1 md 1 s.2) ∧
  ∀ k s, c.recs k = some s → ∃ st0, recInit w (.int axis) orth = .ok (s.1, st0) ∧ RecInv la s.1 md s.2

theorem matInv1_empty : MatInv1 la w orth axis md MatCache1.empty :=
  by
  constructor
  · intro k s h; cases h
  · intro k s h; cases h

theorem decInit_state {level : Option Int} {ah : AxisHint} {mode : Option String} {s : DecCfg R × DecState R}
    (h : decInit w level ah orth mode = .ok s) :
    s.1.wavelet = w ∧ s.1.orth = orth ∧ s.1.oddMode = mode ∧ s.2 = ⟨level, none, [], [], false, []⟩ := by
  unfold decInit at h
  split at h
  · cases h
  · cases h
  · split_ifs at h
    cases h
    exact ⟨rfl, rfl, rfl, rfl⟩

theorem recInit_state {ah : AxisHint} {s : RecCfg R × RecState R}
    (h : recInit w ah orth = .ok s) : s.1.wavelet = w ∧ s.1.orth = orth ∧ s.2 = ⟨none, none, [], false⟩ := by
  unfold recInit at h
  split at h
  · cases h
  · split_ifs at h
    cases h
    exact ⟨rfl, rfl, rfl⟩

theorem packetMatDec1_pure {c : MatCache1 R} (hc : MatInv1 la w orth axis md c) {t : Tensor R} (ht : t.md = md) :
    (packetMatDec1 la w orth axis c t).1 = matDec1 la w orth axis t ∧
    MatInv1 la w orth axis md (packetMatDec1 la w orth axis c t).2 := by
  unfold packetMatDec1 matDec1
  cases sizeAt t axis with
  | error e => exact ⟨rfl, hc⟩
  | ok n =>
    simp only
    obtain ⟨h1, h2⟩ := callKeyed_pure (K := Nat) (mk := decInit w (some 1) (.int axis) orth (some "zero"))
      (call := decObj la)
      (I := fun s => ∃ st0, decInit w (some 1) (.int axis) orth (some "zero") = .ok (s.1, st0) ∧ DecInv la s.1 md 1 s.2)
      (A := fun t => t.md = md)
      (f := fun t => match decInit w (some 1) (.int axis) orth (some "zero") with
        | .error e => .error e
        | .ok s => (decObj la s t).1)
      (by
        intro s hs
        refine ⟨s.2, hs, ?_⟩
        rw [(decInit_state hs).2.2.2]
        exact ⟨rfl, Or.inl rfl⟩)
      (by
        intro e he
        refine ⟨?_, fun a => by rw [he]⟩
        rintro s ⟨st0, h, _⟩
        rw [he] at h; cases h)
      (by
        rintro s a ⟨st0, h, hI⟩ ha
        have h0 : DecInv la s.1 md 1 st0 := by
          have : st0 = _ := (decInit_state h).2.2.2
          rw [this]
          exact ⟨rfl, Or.inl rfl⟩
        obtain ⟨k1, k2⟩ := decCall_inv1 hI h0 ha
        rw [h]
        exact ⟨k1, st0, rfl, k2⟩) hc.1 n ht
    exact ⟨by rw [h1], h2, hc.2⟩

theorem packetMatSyn1_pure {c : MatCache1 R} (hc : MatInv1 la w orth axis md c) {ts : List (Tensor R)}
    (ht : ∀ t ∈ ts, t.md = md) :
    (packetMatSyn1 la w orth axis c ts).1 = matSyn1 la w orth axis ts ∧
    MatInv1 la w orth axis md (packetMatSyn1 la w orth axis c ts).2 := by
  unfold packetMatSyn1 matSyn1
  match ts, ht with
  | [], _ => exact ⟨rfl, hc⟩
  | [_], _ => exact ⟨rfl, hc⟩
  | _ :: _ :: _ :: _, _ => exact ⟨rfl, hc⟩
  | [a, d], ht =>
    simp only
    cases sizeAt a axis with
    | error e => exact ⟨rfl, hc⟩
    | ok n =>
      simp only
      obtain ⟨h1, h2⟩ := callKeyed_pure (K := Nat) (mk := recInit w (.int axis) orth) (call := recObj la)
        (I := fun s => ∃ st0, recInit w (.int axis) orth = .ok (s.1, st0) ∧ RecInv la s.1 md s.2)
        (A := fun cs => ∃ a d : Tensor R, cs = [a, d] ∧ a.md = md)
        (f := fun cs => match recInit w (.int axis) orth with
          | .error e => .error e
          | .ok s => (recObj la s cs).1)
        (by
          intro s hs
          refine ⟨s.2, hs, ?_⟩
          rw [(recInit_state hs).2.2]
          exact Or.inl rfl)
        (by
          intro e he
          refine ⟨?_, fun a => by rw [he]⟩
          rintro s ⟨st0, h, _⟩
          rw [he] at h; cases h)
        (by
          rintro s _ ⟨st0, h, hI⟩ ⟨a, d, rfl, ha⟩
          have h0 : RecInv la s.1 md st0 := by
            have : st0 = _ := (recInit_state h).2.2
            rw [this]
            exact Or.inl rfl
          obtain ⟨k1, k2⟩ := recCall_inv1 hI h0 (d := d) ha
          rw [h]
          exact ⟨k1, st0, rfl, k2⟩) hc.2 n (a := [a, d]) ⟨a, d, rfl, ht a (by simp)⟩
      exact ⟨by rw [h1], hc.1, h2⟩

theorem fit1_md {r old z : Tensor R} (h : fit1 axis r old = .ok z) : z.md = r.md := by
  unfold fit1 at h
  obtain ⟨n, _, h⟩ := bind_ok_inv h
  obtain ⟨m, _, h⟩ := bind_ok_inv h
  obtain ⟨a, _, h⟩ := bind_ok_inv h
  split_ifs at h
  · cases h; rfl
  · cases h; rfl

theorem unpackPair_ok {T : Type} {r : Except Err (List T)} {vs : List T} (h : unpackPair r = .ok vs) :
    r = .ok vs ∧ vs.length = 2 := by
  unfold unpackPair at h
  split at h
  · cases h
  · split_ifs at h
    cases h
    exact ⟨rfl, by assumption⟩

theorem packetMat1_pure : (packetMat1 la w orth axis).Pure (MatInv1 la w orth axis md) (fun t => t.md = md)
    (matDec1 la w orth axis) (matSyn1 la w orth axis) where
  decRes := fun _ _ hc ht => (packetMatDec1_pure hc ht).1
  decInv := fun _ _ hc ht => (packetMatDec1_pure hc ht).2
  decDom := by
    intro t vs ht h
    unfold matDec1 at h
    split at h
    · cases h
    · obtain ⟨h, _⟩ := unpackPair_ok h
      split at h
      · cases h
      · rw [← ht]; exact decCall_md h
  synRes := fun _ _ hc ht => (packetMatSyn1_pure hc ht).1
  synInv := fun _ _ hc ht => (packetMatSyn1_pure hc ht).2
  synDom := by
    intro ts r ht h
    unfold matSyn1 at h
    split at h
    · split at h
      · cases h
      · split at h
        · cases h
        · exact recCall_md ht h
    · cases h
  fitDom := fun r old z hr _ h => (fit1_md h).trans hr
  len := by
    intro t vs _ h
    unfold matDec1 at h
    split at h
    · cases h
    · exact (unpackPair_ok h).2
  nodup := by simp [packetMat1]

theorem packetMat1_complete : (packetMat1 la w orth axis).Complete := by
  constructor
  · intro l k
    show k ∈ getGraycodeOrder l 'a' 'd' ↔ _
    rw [getGraycodeOrder_eq, grayList_mem]
    simp [packetMat1]
  · intro l
    show (getGraycodeOrder l 'a' 'd').Nodup
    rw [getGraycodeOrder_eq]
    exact grayList_nodup (by decide) l

end
end Verif
