import Verif.Dmap.Lemmas.Scalar
/-!
# Exactness of arrays
-/
namespace Verif
open Spec

/-- As `Exact`, for results satisfying `P` only. -/
def ExactOn {α : Type} (buf : Bytes) (P : α → Prop) (m : Rd α) (R : α → Bytes → Prop) : Prop :=
  ∀ (c : Int) (a : α) (c' : Int), 0 ≤ c → c ≤ buf.length → P a →
    (m c = (.ok a, c') ↔ ∃ bs, R a bs ∧ At buf c bs ∧ c' = c + bs.length)

namespace ExactOn
variable {α β : Type} {buf : Bytes}

theorem of_exact {P : α → Prop} {m : Rd α} {R : α → Bytes → Prop} (h : Exact buf m R) :
    ExactOn buf P m R := fun c a c' h0 h1 _ => h c a c' h0 h1

theorem congr {P : α → Prop} {m : Rd α} {R R' : α → Bytes → Prop} (h : ExactOn buf P m R)
    (hR : ∀ a bs, P a → (R a bs ↔ R' a bs)) : ExactOn buf P m R' := by
  intro c a c' h0 h1 hP
  rw [h c a c' h0 h1 hP]
  simp only [hR a _ hP]

theorem bind {P : β → Prop} {m : Rd α} {f : α → Rd β} {R : α → Bytes → Prop}
    {S : α → β → Bytes → Prop}
    (hm : Exact buf m R) (hf : ∀ a, (∃ bs, R a bs) → ExactOn buf P (f a) (S a)) :
    ExactOn buf P (m >>= f) (fun b bs => ∃ a b1 b2, R a b1 ∧ S a b b2 ∧ bs = b1 ++ b2) := by
  intro c b c' h0 h1 hP
  have hdef : (m >>= f) c = match m c with
    | (.ok a, c') => f a c'
    | (.error e, c') => (.error e, c') := rfl
  rw [hdef]
  constructor
  · intro h
    cases hmc : m c with
    | mk r c1 =>
      rw [hmc] at h
      cases r with
      | error e => simp at h
      | ok a =>
        obtain ⟨b1, hR, hat, hc1⟩ := (hm c a c1 h0 h1).1 hmc
        have hb := hat.bounds
        obtain ⟨b2, hS, hat2, hc2⟩ := (hf a ⟨b1, hR⟩ c1 b c' (by omega) (by omega) hP).1 h
        refine ⟨b1 ++ b2, ⟨a, b1, b2, hR, hS, rfl⟩, ?_, ?_⟩
        · rw [at_append]; exact ⟨hat, hc1 ▸ hat2⟩
        · simp; omega
  · rintro ⟨bs, ⟨a, b1, b2, hR, hS, rfl⟩, hat, hc⟩
    rw [at_append] at hat
    have hb := hat.1.bounds
    have e1 := (hm c a (c + b1.length) h0 h1).2 ⟨b1, hR, hat.1, rfl⟩
    rw [e1]
    refine (hf a ⟨b1, hR⟩ _ b c' (by omega) (by omega) hP).2 ⟨b2, hS, hat.2, ?_⟩
    simp at hc; omega

end ExactOn

theorem readInts_exact {buf : Bytes} (n : Nat) :
    Exact buf (readInts buf n)
      (fun xs bs => xs.length = n ∧ (∀ x ∈ xs, signedOk 4 x) ∧ bs = xs.flatMap (intLE 4)) := by
  induction n with
  | zero =>
    refine Exact.congr (Exact.pure ([] : List Int)) (fun xs bs _ => ?_)
    constructor
    · rintro ⟨rfl, rfl⟩; simp
    · rintro ⟨h, _, rfl⟩
      have := List.length_eq_zero_iff.1 h; subst this; simp
  | succ n ih =>
    have h := Exact.bind (buf := buf) readInt_exact
      (f := fun x => readInts buf n >>= fun xs => (Pure.pure (x :: xs) : Rd (List Int)))
      (fun x _ => Exact.bind ih fun xs _ => Exact.pure _)
    refine Exact.congr h (fun xs bs _ => ?_)
    constructor
    · rintro ⟨x, b1, b2, ⟨hx, rfl⟩, ⟨ys, b3, b4, ⟨hl, ha, rfl⟩, ⟨rfl, rfl⟩, rfl⟩, rfl⟩
      simp [hl, hx]; exact ha
    · rintro ⟨hl, ha, rfl⟩
      cases xs with
      | nil => simp at hl
      | cons x ys =>
        simp at hl ha
        exact ⟨x, _, _, ⟨ha.1, rfl⟩, ⟨ys, ys.flatMap (intLE 4), [], ⟨hl, ha.2, rfl⟩, ⟨rfl, rfl⟩, rfl⟩,
          by simp⟩

theorem foldl_mul (l : List Int) (a : Int) : l.foldl (· * ·) a = a * prodInt l := by
  unfold prodInt
  induction l generalizing a with
  | nil => simp
  | cons x xs ih =>
    simp only [List.foldl_cons]
    rw [ih (a * x), ih (1 * x)]; simp [Int.mul_assoc]

theorem prodInt_cons (x : Int) (l : List Int) : prodInt (x :: l) = x * prodInt l := by
  have := foldl_mul l (1 * x)
  simpa [prodInt] using this

theorem prodInt_ofNat (l : List Nat) : prodInt (l.map Int.ofNat) = (prod l : Nat) := by
  induction l with
  | nil => rfl
  | cons x xs ih =>
    rw [List.map_cons, prodInt_cons, ih]; simp [prod]

theorem length_chunks (sz k : Nat) (bs : Bytes) : (chunks sz k bs).length = k := by
  induction k generalizing bs with
  | zero => rfl
  | succ k ih => simp [chunks, ih]

theorem chunks_flatten {sz k : Nat} {bs : Bytes} (h : k * sz ≤ bs.length) :
    (chunks sz k bs).flatten = bs.take (k * sz) ∧ ∀ x ∈ chunks sz k bs, x.length = sz := by
  induction k generalizing bs with
  | zero => simp [chunks]
  | succ k ih =>
    rw [Nat.succ_mul] at h
    have := ih (bs := bs.drop sz) (by simp; omega)
    simp only [chunks, List.flatten_cons, List.mem_cons, forall_eq_or_imp]
    refine ⟨?_, ?_, this.2⟩
    · rw [this.1, Nat.succ_mul, Nat.add_comm, List.take_add]
    · simp; omega

theorem chunks_of_flatten {sz : Nat} {l : List Bytes} {rest : Bytes}
    (h : ∀ x ∈ l, x.length = sz) : chunks sz l.length (l.flatten ++ rest) = l := by
  induction l with
  | nil => rfl
  | cons x xs ih =>
    simp only [List.mem_cons, forall_eq_or_imp] at h
    simp only [List.length_cons, chunks, List.flatten_cons, List.append_assoc]
    have hx := h.1
    rw [List.take_append_of_le_length (by omega), List.take_of_length_le (by omega),
      List.drop_append_of_le_length (by omega), List.drop_of_length_le (by omega)]
    simp [ih h.2]

theorem length_flatten_of {sz : Nat} {l : List Bytes} (h : ∀ x ∈ l, x.length = sz) :
    l.flatten.length = l.length * sz := by
  induction l with
  | nil => simp
  | cons x xs ih =>
    simp only [List.mem_cons, forall_eq_or_imp] at h
    simp only [List.flatten_cons, List.length_append, List.length_cons, ih h.2, h.1, Nat.succ_mul]
    omega

theorem readDtype_eq (fm : Fmt) : fm.readDtype = presented fm := by cases fm <;> rfl

theorem npBytes_eq (sz : Nat) (l : List Nat) : npBytes sz l = prodNonzero l * sz := by
  induction l with
  | nil => simp [npBytes, prodNonzero]
  | cons x xs ih => simp only [npBytes, prodNonzero, ih, Nat.mul_assoc]

theorem prodNonzero_pos {l : List Nat} (h : ∀ n ∈ l, 1 ≤ n) : prodNonzero l = prod l := by
  induction l with
  | nil => rfl
  | cons x xs ih =>
    have hx := h x (by simp)
    simp only [prodNonzero, prod, ih fun n hn => h n (by simp [hn])]
    rw [if_neg (by omega)]

/-- Cells of an array with non-negative dimensions. -/
theorem readNumericalArray_exact {cfg : NpCfg} {buf : Bytes} {fm : Fmt} {sh : List Nat} {sz : Nat} :
    Exact buf (readNumericalArray cfg buf (sh.map Int.ofNat) fm (prodInt (sh.map Int.ofNat)) sz)
      (fun v bs => (sh.length ≤ cfg.maxDims ∧ prodNonzero sh * sz < 2 ^ 63) ∧ v.dtype = presented fm ∧ v.shape = sh ∧
        v.cells.length = prod sh ∧ (∀ x ∈ v.cells, x.length = sz) ∧ bs = v.cells.flatten) := by
  intro c v c' h0 h1
  rw [prodInt_ofNat]
  have hfilter : ((sh.map Int.ofNat).filter (· < 0)).length = 0 := by
    rw [List.length_eq_zero_iff, List.filter_eq_nil_iff]
    intro x hx
    simp only [List.mem_map] at hx
    obtain ⟨n, _, rfl⟩ := hx
    simp
  have hmap : (sh.map Int.ofNat).map Int.toNat = sh := by
    rw [List.map_map]; simp [Function.comp_def]
  have hresh : ∀ n : Nat, npReshape cfg sz n (sh.map Int.ofNat) =
      if sh.length > cfg.maxDims then .error .valueError
      else if prod sh = n then npShape sz sh else .error .valueError := by
    intro n
    unfold npReshape
    rw [hfilter, hmap, prodInt_ofNat, List.length_map]
    simp only [Int.ofNat_inj]
  have hdef : readNumericalArray cfg buf (sh.map Int.ofNat) fm (prod sh : Nat) sz c =
      (id (α := Except Err NdArr × Int) <|
      match npFrombuffer buf sz (prod sh : Nat) c with
      | .error e => (.error e, c)
      | .ok cells =>
        match npReshape cfg sz cells.length (sh.map Int.ofNat) with
        | .error e => (.error e, c + (prod sh : Nat) * sz)
        | .ok shp => (.ok { dtype := fm.readDtype, shape := shp, cells := cells },
            c + (prod sh : Nat) * sz)) := by
    show Rd.bind _ _ c = _
    unfold Rd.bind Rd.lift
    simp only [id]
    cases npFrombuffer buf sz (prod sh : Nat) c with
    | error e => rfl
    | ok cells =>
      show Rd.bind _ _ c = _
      unfold Rd.bind Rd.setCursor
      show Rd.bind _ _ _ = _
      unfold Rd.bind
      simp only
      cases npReshape cfg sz cells.length (sh.map Int.ofNat) <;> rfl
  rw [hdef]
  simp only [id]
  unfold npFrombuffer
  rw [if_neg (by omega), if_neg (by omega)]
  simp only
  rw [if_neg (by omega)]
  by_cases hlen : ((buf.drop c.toNat).length : Int) < (prod sh : Nat) * sz
  · rw [if_pos hlen]
    simp only [Prod.mk.injEq, reduceCtorEq, false_and, false_iff]
    rintro ⟨bs, ⟨_, _, _, hc, hx, rfl⟩, hat, _⟩
    have hb := hat.bounds
    rw [length_flatten_of hx, hc] at hb
    simp only [List.length_drop] at hlen
    rw [Int.natCast_mul] at hb
    omega
  · rw [if_neg hlen]
    simp only [Int.toNat_natCast, length_chunks, hresh]
    by_cases hm : sh.length > cfg.maxDims
    · rw [if_pos hm]
      simp only [Prod.mk.injEq, reduceCtorEq, false_and, false_iff]
      rintro ⟨bs, ⟨h, _⟩, _, _⟩; omega
    · rw [if_neg hm]
      simp only [if_true, npShape, npBytes_eq]
      by_cases hb : prodNonzero sh * sz < 2 ^ 63
      rotate_left
      · rw [if_neg hb]
        simp only [Prod.mk.injEq, reduceCtorEq, false_and, false_iff]
        rintro ⟨bs, ⟨h, _⟩, _, _⟩; exact hb h.2
      rw [if_pos hb]
      simp only [Prod.mk.injEq, Except.ok.injEq]
      have hle : prod sh * sz ≤ (buf.drop c.toNat).length := by
        rw [← Int.natCast_mul] at hlen; omega
      have hch := chunks_flatten hle
      constructor
      · rintro ⟨rfl, rfl⟩
        refine ⟨_, ⟨⟨by omega, hb⟩, readDtype_eq fm, rfl, length_chunks _ _ _, hch.2, rfl⟩, ?_, ?_⟩
        · simp only
          rw [hch.1, at_iff]
          have hl : ((buf.drop c.toNat).take (prod sh * sz)).length = prod sh * sz := by
            rw [List.length_take]; omega
          refine ⟨h0, ?_, by rw [hl]⟩
          rw [hl]
          rw [List.length_drop] at hle; omega
        · simp only
          rw [length_flatten_of hch.2, length_chunks]
          rw [Int.natCast_mul]
      · rintro ⟨bs, ⟨_, h2, h3, h4, h5, rfl⟩, hat, rfl⟩
        refine ⟨?_, by rw [length_flatten_of h5, h4, Int.natCast_mul]⟩
        obtain ⟨pre, suf, hbuf, hc⟩ := hat
        have hd : buf.drop c.toNat = v.cells.flatten ++ suf := by
          subst hbuf; subst hc; simp [List.append_assoc]
        rw [hd, ← h4, chunks_of_flatten h5, readDtype_eq, ← h2, ← h3]

/-- Header of an array. -/
structure ArrHead where
  name : PyStr
  code : Nat
  fmt : Fmt
  size : Nat
  dim : Int
  dims : List Int

/-- The part of `readArray` before the shape checks. -/
def readHead (buf : Bytes) (rn : Nat) (recordSize : Int) : Rd ArrHead :=
  readDataS buf rn >>= fun name => readDataC buf >>= fun n =>
    checkDataType rn n name >>= fun p => readInt buf >>= fun dim =>
    bytesCheck rn dim recordSize >>= fun _ => zeroNegativeCheck rn dim >>= fun _ =>
    readInts buf dim.toNat >>= fun dims =>
    Pure.pure { name := name, code := n, fmt := p.1, size := p.2, dim := dim, dims := dims }

/-- The rest of `readArray`. -/
def readTail (cfg : NpCfg) (buf : Bytes) (rn : Nat) (recordSize : Int) (h : ArrHead) : Rd DmapArray :=
  let shape := if h.dim > 1 then h.dims.reverse else h.dims
  if (shape.any fun x => decide (x ≤ 0)) = true ∧ h.name ≠ slist then Rd.raise .dmapDataError
  else if (shape.any fun x => decide (x ≥ recordSize)) = true then Rd.raise .dmapDataError
  else
    bytesCheck rn (prodInt shape) recordSize >>= fun _ =>
    bytesCheck rn (prodInt shape * h.size) recordSize >>= fun _ =>
    if h.fmt = .s then Rd.raise .dmapDataError
    else if h.code = 0 then Rd.raise .dmapDataError
    else
      readNumericalArray cfg buf shape h.fmt (prodInt shape) h.size >>= fun v =>
      Pure.pure { name := h.name, value := v, dataType := h.code, fmt := h.fmt,
                  dimension := h.dim, shape := shape }

theorem rd_bind_assoc {α β γ : Type} (m : Rd α) (f : α → Rd β) (g : β → Rd γ) :
    (m >>= f) >>= g = m >>= fun a => f a >>= g := by
  funext c
  show Rd.bind (Rd.bind m f) g c = Rd.bind m (fun a => Rd.bind (f a) g) c
  unfold Rd.bind
  cases m c with
  | mk r c1 => cases r <;> rfl

theorem rd_pure_bind {α β : Type} (a : α) (f : α → Rd β) : (Pure.pure a : Rd α) >>= f = f a := rfl

theorem readArray_eq (cfg : NpCfg) (buf : Bytes) (rn : Nat) (recordSize : Int) :
    readArray cfg buf rn recordSize = readHead buf rn recordSize >>= readTail cfg buf rn recordSize := by
  unfold readArray readHead
  simp only [rd_bind_assoc, rd_pure_bind]
  rfl

theorem readHead_exact {buf : Bytes} (rn : Nat) (recordSize : Int) :
    Exact buf (readHead buf rn recordSize) (fun h bs =>
      NulFree h.name ∧ h.code = code h.fmt ∧ h.size = cellSize h.fmt ∧ h.dim ≤ recordSize ∧
      h.dim = h.dims.length ∧ 1 ≤ h.dims.length ∧ h.dims.length < 2 ^ 31 ∧
      (∀ x ∈ h.dims, signedOk 4 x) ∧
      bs = encStr h.name ++ [UInt8.ofNat (code h.fmt)] ++ natLE 4 h.dims.length ++
        h.dims.flatMap (intLE 4)) := by
  have h := Exact.bind (buf := buf) (readDataS_exact rn) fun name _ =>
    Exact.bind readDataC_exact fun n _ =>
    Exact.bind (checkDataType_exact rn n name) fun p _ =>
    Exact.bind readInt_exact fun dim _ =>
    Exact.bind (bytesCheck_exact rn dim recordSize) fun _ _ =>
    Exact.bind (zeroNegativeCheck_exact rn dim) fun _ _ =>
    Exact.bind (readInts_exact dim.toNat) fun dims _ =>
    Exact.pure (α := ArrHead)
      { name := name, code := n, fmt := p.1, size := p.2, dim := dim, dims := dims }
  refine Exact.congr h (fun a bs _ => ?_)
  constructor
  · rintro ⟨name, _, _, ⟨hn, rfl⟩, ⟨n, _, _, ⟨hlt, rfl⟩, ⟨p, _, _, ⟨⟨rfl, hp⟩, rfl⟩,
      ⟨dim, _, _, ⟨hd, rfl⟩, ⟨_, _, _, ⟨hle, rfl⟩, ⟨_, _, _, ⟨hpos, rfl⟩, ⟨dims, _, _, ⟨hl, hs, rfl⟩,
      ⟨rfl, rfl⟩, rfl⟩, rfl⟩, rfl⟩, rfl⟩, rfl⟩, rfl⟩, rfl⟩
    unfold signedOk at hd
    have hdim : dim = dims.length := by omega
    have h1 : 1 ≤ dims.length := by omega
    have h2 : dims.length < 2 ^ 31 := by omega
    refine ⟨hn, rfl, hp, hle, hdim, h1, h2, hs, ?_⟩
    rw [hdim, intLE_natCast (by omega)]; simp
  · obtain ⟨name, cd, fm, sz, dim, dims⟩ := a
    rintro ⟨hn, hc, hsz, hle, hdim, h1, h2, hs, rfl⟩
    simp only at hn hc hsz hle hdim h1 h2 hs
    subst hc hsz hdim
    refine ⟨name, _, _, ⟨hn, rfl⟩, ⟨code fm, _, _, ⟨code_lt _, rfl⟩, ⟨(fm, cellSize fm), _, _,
      ⟨⟨rfl, rfl⟩, rfl⟩, ⟨dims.length, _, _, ⟨?_, rfl⟩, ⟨(), _, _, ⟨hle, rfl⟩, ⟨(), _, _, ⟨by omega, rfl⟩,
      ⟨dims, _, _, ⟨by simp, hs, rfl⟩, ⟨rfl, rfl⟩, rfl⟩, rfl⟩, rfl⟩, rfl⟩, rfl⟩, rfl⟩, ?_⟩
    · unfold signedOk; omega
    · rw [intLE_natCast (by omega)]; simp

theorem eq_map_ofNat {l : List Int} (h : ∀ x ∈ l, 0 ≤ x) : (l.map Int.toNat).map Int.ofNat = l := by
  rw [List.map_map]
  conv => rhs; rw [← List.map_id l]
  apply List.map_congr_left
  intro x hx
  have := h x hx
  simp only [Function.comp_apply, Int.ofNat_eq_natCast, id]
  omega

theorem flatMap_intLE (l : List Nat) (h : ∀ n ∈ l, n < 2 ^ 31) :
    (l.map Int.ofNat).flatMap (intLE 4) = l.flatMap fun n => natLE 4 n := by
  induction l with
  | nil => rfl
  | cons x xs ih =>
    simp only [List.mem_cons, forall_eq_or_imp] at h
    simp only [List.map_cons, List.flatMap_cons, ih h.2]
    congr 1
    exact intLE_natCast (by omega)

theorem shape_ite {dim : Int} {dims : List Int} (h : dim = dims.length) :
    (if dim > 1 then dims.reverse else dims) = dims.reverse := by
  split
  · rfl
  · match dims, h with
    | [], _ => rfl
    | [x], _ => rfl
    | x :: y :: r, h => simp at h; omega

/-- An array with non-negative dimensions, read in a block of `n` bytes. -/
theorem readArray_exact {cfg : NpCfg} {buf : Bytes} (rn n : Nat) (hn : n < 2 ^ 31) :
    ExactOn buf (fun a => ∀ x ∈ a.shape, 0 ≤ x) (readArray cfg buf rn n) (fun a bs =>
      ArrayEnc cfg.maxDims n presented a bs ∧ a.value.shape.length ≤ n ∧ prod a.value.shape ≤ n ∧
        prod a.value.shape * cellSize a.fmt ≤ n) := by
  rw [readArray_eq]
  have htail : ∀ h : ArrHead, h.dim = h.dims.length →
      ExactOn buf (fun a => ∀ x ∈ a.shape, 0 ≤ x) (readTail cfg buf rn n h) (fun a bs =>
        (∀ x ∈ h.dims, 0 ≤ x) ∧
        ((∀ x ∈ h.dims, 0 < x) ∨ h.name = slist) ∧ (∀ x ∈ h.dims, x < n) ∧
        prodNonzero (h.dims.reverse.map Int.toNat) * h.size < 2 ^ 63 ∧
        prod (h.dims.reverse.map Int.toNat) ≤ n ∧
        prod (h.dims.reverse.map Int.toNat) * h.size ≤ n ∧ h.fmt ≠ .s ∧ h.code ≠ 0 ∧
        ∃ v : NdArr, h.dims.length ≤ cfg.maxDims ∧ v.dtype = presented h.fmt ∧
          v.shape = h.dims.reverse.map Int.toNat ∧ v.cells.length = prod v.shape ∧
          (∀ x ∈ v.cells, x.length = h.size) ∧ bs = v.cells.flatten ∧
          a = { name := h.name, value := v, dataType := h.code, fmt := h.fmt, dimension := h.dim,
                shape := h.dims.reverse }) := by
    intro h hdim
    unfold readTail
    rw [shape_ite hdim]
    by_cases hnn : ∀ x ∈ h.dims, 0 ≤ x
    · apply ExactOn.of_exact
      have hrev : ∀ x ∈ h.dims.reverse, 0 ≤ x := by simpa using hnn
      have hsh := eq_map_ofNat hrev
      have hprod : prodInt h.dims.reverse = (prod (h.dims.reverse.map Int.toNat) : Nat) := by
        rw [← prodInt_ofNat, hsh]
      have hexact := Exact.guard (buf := buf)
        (p := (h.dims.reverse.any fun x => decide (x ≤ 0)) = true ∧ h.name ≠ slist)
        (e := .dmapDataError) fun _ =>
        Exact.guard (p := (h.dims.reverse.any fun x => decide (x ≥ (n : Int))) = true)
        (e := .dmapDataError) fun _ =>
        Exact.bind (bytesCheck_exact rn (prodInt h.dims.reverse) n) fun _ _ =>
        Exact.bind (bytesCheck_exact rn (prodInt h.dims.reverse * h.size) n) fun _ _ =>
        Exact.guard (p := h.fmt = .s) (e := .dmapDataError) fun _ =>
        Exact.guard (p := h.code = 0) (e := .dmapDataError) fun _ =>
        Exact.bind (readNumericalArray_exact (cfg := cfg) (fm := h.fmt)
          (sh := h.dims.reverse.map Int.toNat) (sz := h.size)) fun v _ =>
        Exact.pure (α := DmapArray)
          { name := h.name, value := v, dataType := h.code, fmt := h.fmt,
            dimension := h.dim, shape := h.dims.reverse }
      rw [hsh] at hexact
      refine Exact.congr hexact (fun a bs _ => ?_)
      rw [hprod]
      simp only [List.any_eq_true, List.mem_reverse, decide_eq_true_eq, not_and, Decidable.not_not,
        not_exists, List.length_map, List.length_reverse]
      constructor
      · rintro ⟨g1, g2, _, _, _, ⟨g3, rfl⟩, ⟨_, _, _, ⟨g4, rfl⟩, ⟨g5, g6, v, _, _, ⟨g7, g8, g9, g10, g11, rfl⟩,
          ⟨rfl, rfl⟩, rfl⟩, rfl⟩, rfl⟩
        refine ⟨hnn, ?_, fun x hx => by have := g2 x hx; omega, g7.2, by omega, ?_, g5, g6, v, g7.1, g8, g9,
          by rw [g9]; exact g10, g11, by simp, rfl⟩
        · by_cases hs : h.name = slist
          · exact Or.inr hs
          · left
            intro x hx
            have := hnn x hx
            by_cases hx0 : x ≤ 0
            · exact absurd (g1 ⟨x, hx, hx0⟩) hs
            · omega
        · rw [← Int.natCast_mul] at g4; omega
      · rintro ⟨_, g1, g2, g0, g3, g4, g5, g6, v, g7, g8, g9, g10, g11, rfl, rfl⟩
        refine ⟨?_, fun x hx => by have := g2 x hx; omega, (), [], _, ⟨by omega, rfl⟩, ⟨(), [], _, ⟨?_, rfl⟩,
          ⟨g5, g6, v, _, [], ⟨⟨g7, g0⟩, g8, g9, by rw [← g9]; exact g10, g11, rfl⟩, ⟨rfl, rfl⟩, rfl⟩, rfl⟩, by simp⟩
        · rintro ⟨x, hx, hx0⟩
          rcases g1 with g1 | g1
          · have := g1 x hx; omega
          · exact g1
        · rw [← Int.natCast_mul]; omega
    · intro c a c' _ _ hP
      constructor
      · intro hr
        exfalso
        have : a.shape = h.dims.reverse := by
          simp only at hr
          split at hr
          · simp [Rd.raise] at hr
          · split at hr
            · simp [Rd.raise] at hr
            · simp only [Bind.bind, Rd.bind, bytesCheck] at hr
              split at hr
              · split at hr
                · split at hr
                  · simp [Rd.raise] at hr
                  · split at hr
                    · simp [Rd.raise] at hr
                    · unfold Rd.bind at hr
                      split at hr
                      · simp only [Pure.pure, Rd.pure, Prod.mk.injEq, Except.ok.injEq] at hr
                        rw [← hr.1]
                      · simp at hr
                · simp at hr
              · simp at hr
        rw [this] at hP
        exact hnn (by simpa using hP)
      · rintro ⟨_, ⟨h', _⟩, _⟩
        exact absurd h' hnn
  have h := ExactOn.bind (readHead_exact (buf := buf) rn n)
    (f := readTail cfg buf rn n) (fun hd he => htail hd (by obtain ⟨_, he⟩ := he; exact he.2.2.2.2.1))
  refine ExactOn.congr h (fun a bs hP => ?_)
  constructor
  · rintro ⟨⟨name, cd, fm, sz, dim, dims⟩, b1, b2, ⟨h1, h2, h3, h4, h5, h6, h7, h8, rfl⟩,
      ⟨g1, g2, g3, g0, g4, g5, g6, g7, v, g8, g9, g10, g11, g12, rfl, rfl⟩, rfl⟩
    simp only at *
    subst h2 h3 h5
    have hnum : isNumeric fm = true := by
      cases fm <;> first | rfl | (exact absurd rfl g6) | (exact absurd rfl g7)
    have hmap := eq_map_ofNat (l := dims.reverse) (by simpa using g1)
    refine ⟨⟨h1, hnum, rfl, g9, by simp [g10], by simp [g10]; omega, by simp [g10]; omega, ?_, ?_, ?_,
      g11, g12, ?_⟩, by simp [g10]; omega, by rw [g10]; exact g4, by rw [g10]; exact g5⟩
    · simp only; rw [g10, hmap]
    · rcases g2 with g2 | g2
      · left
        simp only [g10, List.mem_map, List.mem_reverse]
        rintro _ ⟨x, hx, rfl⟩
        have := g2 x hx; omega
      · right; exact ⟨g2, by simp only [g10]; exact g0⟩
    · simp only [g10, List.mem_map, List.mem_reverse]
      rintro _ ⟨x, hx, rfl⟩
      have := g3 x hx; have := g1 x hx; omega
    · simp only [g10, ← List.map_reverse, List.reverse_reverse]
      rw [← flatMap_intLE, eq_map_ofNat g1]
      · simp
      · simp only [List.mem_map]
        rintro _ ⟨x, hx, rfl⟩
        have := g3 x hx; have := g1 x hx; omega
  · rintro ⟨he, h1, h2, h3⟩
    obtain ⟨name, v, dt, fm, dim, sh⟩ := a
    obtain ⟨e1, e2, e3, e4, e5, e6, e7, e8, e9, e10, e11, e12, e13⟩ := he
    simp only at *
    subst e3 e5 e8
    have hrr : (v.shape.map Int.ofNat).reverse = (v.shape.reverse).map Int.ofNat := by simp
    have hto : ((v.shape.map Int.ofNat).reverse.reverse).map Int.toNat = v.shape := by
      rw [List.reverse_reverse, List.map_map]; simp [Function.comp_def]
    refine ⟨⟨name, code fm, fm, cellSize fm, v.shape.length, (v.shape.map Int.ofNat).reverse⟩,
      encStr name ++ [UInt8.ofNat (code fm)] ++ natLE 4 v.shape.length ++
        (v.shape.reverse.flatMap fun n => natLE 4 n), v.cells.flatten,
      ⟨e1, rfl, rfl, by simp only; omega, by simp, by simp; omega, by simp; omega, ?_, ?_⟩,
      ⟨?_, ?_, ?_, ?_, ?_, ?_, ?_, ?_, v, by simp; omega, e4, ?_, ?_, e12, rfl, ?_⟩, ?_⟩
    · simp only [List.mem_reverse, List.mem_map]
      rintro _ ⟨x, hx, rfl⟩
      have := e10 x hx
      unfold signedOk; simp; omega
    · simp only [hrr]
      rw [flatMap_intLE]
      · simp
      · intro x hx
        have := e10 x (by simpa using hx); omega
    · simp only [List.mem_reverse, List.mem_map]
      rintro _ ⟨x, hx, rfl⟩; simp
    · rcases e9 with e9 | e9
      · left
        simp only [List.mem_reverse, List.mem_map]
        rintro _ ⟨x, hx, rfl⟩
        have := e9 x hx; simp; omega
      · right; exact e9.1
    · simp only [List.mem_reverse, List.mem_map]
      rintro _ ⟨x, hx, rfl⟩
      have := e10 x hx; simp; omega
    · rw [hto]
      rcases e9 with e9 | e9
      · rw [prodNonzero_pos e9]; simp only; omega
      · exact e9.2
    · rw [hto]; exact h2
    · rw [hto]; exact h3
    · intro h; subst h; simp [isNumeric] at e2
    · cases fm <;> first | (simp [code]; done) | simp [isNumeric] at e2
    · rw [hto]
    · exact e11
    · simp
    · rw [e13]

/-- The checks against the block size follow when the array lies in the block. -/
theorem arrayEnc_fits {mr n : Nat} {dt : Fmt → DType} {a : DmapArray} {bs : Bytes}
    (h : ArrayEnc mr n dt a bs) (hl : bs.length ≤ n) :
    a.value.shape.length ≤ n ∧ prod a.value.shape ≤ n ∧ prod a.value.shape * cellSize a.fmt ≤ n := by
  have hb := congrArg List.length h.bytes
  have hsh : ∀ l : List Nat, (l.flatMap fun n => natLE 4 n).length = 4 * l.length := by
    intro l
    induction l with
    | nil => rfl
    | cons x xs ih => simp only [List.flatMap_cons, List.length_append, ih, length_natLE, List.length_cons]; omega
  simp only [List.length_append, length_natLE, hsh, List.length_reverse, length_flatten_of h.cells, h.count] at hb
  have hnum := h.numeric
  have hc : 1 ≤ cellSize a.fmt := by
    cases hf : a.fmt <;> first | (simp [cellSize]; done) | (rw [hf] at hnum; simp [isNumeric] at hnum)
  have : prod a.value.shape * 1 ≤ prod a.value.shape * cellSize a.fmt := Nat.mul_le_mul_left _ hc
  omega

end Verif
