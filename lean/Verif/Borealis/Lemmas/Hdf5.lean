import Verif.Borealis.SpecFiles
import Verif.Borealis.Model.Hdf5
import Verif.Borealis.Lemmas.Convert
import Verif.Borealis.Lemmas.Checks
import Verif.Borealis.Lemmas.Tables
/-!
# Values in HDF5 files
-/
namespace Verif.Bor
open Verif

/-! ## Texts -/

theorem stripNul_replicate {α : Type} [BEq α] [LawfulBEq α] (z : α) (s : List α) (n : Nat)
    (h : s.getLast? ≠ some z) : stripNul z (s ++ List.replicate n z) = s := by
  unfold stripNul
  rw [List.reverse_append, List.reverse_replicate]
  have h1 : ∀ n (l : List α), l.head? ≠ some z →
      (List.replicate n z ++ l).dropWhile (· == z) = l := by
    intro n l hl
    induction n with
    | zero =>
      cases l with
      | nil => rfl
      | cons x l =>
        have : (x == z) = false := by
          cases hx : x == z with
          | false => rfl
          | true => exact absurd (by simp [eq_of_beq hx]) hl
        simp [this]
    | succ n ih => simpa [List.replicate_succ, List.dropWhile] using ih
  rw [h1 n s.reverse (by rwa [List.head?_reverse]), List.reverse_reverse]

theorem stripNul_self {α : Type} [BEq α] [LawfulBEq α] (z : α) (s : List α)
    (h : s.getLast? ≠ some z) : stripNul z s = s := by
  simpa using stripNul_replicate z s 0 h

theorem asciiBytes_ok {s : PyStr} {b : Bytes} (h : asciiBytes s = .ok b) :
    b = utf8Encode s ∧ AsciiText s := by
  induction s generalizing b with
  | nil => cases h; exact ⟨rfl, by simp [AsciiText]⟩
  | cons c s ih =>
    unfold asciiBytes at h
    split at h
    · rename_i hc
      obtain ⟨b', hb, h⟩ := bind_ok h
      cases h
      obtain ⟨rfl, hs⟩ := ih hb
      refine ⟨?_, ?_⟩
      · simp [utf8Encode, utf8EncodeChar, hc]
      · intro d hd
        rcases List.mem_cons.1 hd with rfl | hd
        · exact hc
        · exact hs d hd
    · cases h

theorem asciiBytes_of {s : PyStr} (h : AsciiText s) : asciiBytes s = .ok (utf8Encode s) := by
  induction s with
  | nil => rfl
  | cons c s ih =>
    have hc : c.toNat < 128 := h c (by simp)
    rw [asciiBytes, if_pos hc, ih fun d hd => h d (by simp [hd])]
    simp [utf8Encode, utf8EncodeChar, hc, bind, Except.bind]

theorem getLast?_utf8Encode {s : PyStr} (ha : AsciiText s) (h : NoNulEnd s) :
    (utf8Encode s).getLast? ≠ some 0 := by
  have : utf8Encode s = s.map fun c => UInt8.ofNat c.toNat := by
    clear h
    induction s with
    | nil => rfl
    | cons c s ih =>
      have hc : c.toNat < 128 := ha c (by simp)
      have := ih fun d hd => ha d (by simp [hd])
      simp only [utf8Encode] at this
      simp [utf8Encode, utf8EncodeChar, hc, this]
  rw [this, List.getLast?_map]
  unfold NoNulEnd at h
  cases hl : s.getLast? with
  | none => simp
  | some c =>
    rw [hl] at h
    have hc : c.toNat < 128 := ha c (List.mem_of_getLast? hl)
    simp only [Option.map_some, ne_eq, Option.some.injEq]
    intro h0
    have h1 : (UInt8.ofNat c.toNat).toNat = c.toNat := toNat_ofNat_lt (by omega)
    rw [h0] at h1
    apply h
    have : c.toNat = 0 := h1.symm
    rw [← Char.ofNat_toNat c, this]

/-- An ASCII text that does not end in NUL comes back. -/
theorem text_back {s : PyStr} {b : Bytes} (h : asciiBytes s = .ok b) (hn : NoNulEnd s) :
    decodeUtf8 (stripNul 0 b) = .ok s := by
  obtain ⟨rfl, ha⟩ := asciiBytes_ok h
  rw [stripNul_self _ _ (getLast?_utf8Encode ha hn)]
  simp [decodeUtf8, utf8Decode_encode]

/-! ## Strings of arrays -/

theorem length_charBytes (c : Char) : (charBytes c).length = 4 := by simp [charBytes]

theorem charOf_charBytes (c : Char) : charOf (charBytes c) = .ok c := by
  have hv := Char.valid_range c
  have h : leNat (charBytes c) = c.toNat := by
    rw [charBytes, leNat_natLE]
    exact Nat.mod_eq_of_lt (by omega)
  have hv' : (leNat (charBytes c)).isValidChar := by rw [h]; exact c.valid
  rw [charOf, if_pos hv', h, Char.ofNat_toNat]

theorem takeChars_flatMap (s : PyStr) (r : Bytes) :
    takeChars s.length (s.flatMap charBytes ++ r) = .ok (s, r) := by
  induction s with
  | nil => rfl
  | cons c s ih =>
    have h1 : ((c :: s).flatMap charBytes ++ r).take 4 = charBytes c := by
      rw [List.flatMap_cons, List.append_assoc, List.take_append_of_le_length (by simp [length_charBytes])]
      exact List.take_of_length_le (by simp [length_charBytes])
    have h2 : ((c :: s).flatMap charBytes ++ r).drop 4 = s.flatMap charBytes ++ r := by
      rw [List.flatMap_cons, List.append_assoc, ← length_charBytes c, List.drop_left]
    rw [List.length_cons, takeChars, h1, charOf_charBytes, h2, ]
    show (takeChars s.length (s.flatMap charBytes ++ r) >>= fun p => .ok (c :: p.1, p.2)) = _
    rw [ih]; rfl

theorem takeChars_strBytes {w : Nat} {s : PyStr} (h : s.length ≤ w) (r : Bytes) :
    takeChars w (strBytes w s ++ r) = .ok (s ++ List.replicate (w - s.length) '\x00', r) := by
  have := takeChars_flatMap (s ++ List.replicate (w - s.length) '\x00') r
  rwa [List.length_append, List.length_replicate, Nat.add_sub_cancel' h] at this

theorem takeStrs_textBytes {w : Nat} {l : List Elt} {b : Bytes}
    (hl : ∀ e ∈ l, ∃ s, e = .str s ∧ NoNulEnd s ∧ s.length ≤ w) (h : textBytes w l = .ok b) :
    takeStrs w l.length b = .ok l := by
  induction l generalizing b with
  | nil => rfl
  | cons e l ih =>
    obtain ⟨s, rfl, hn, hw⟩ := hl e (by simp)
    rw [textBytes] at h
    obtain ⟨b', hb, h⟩ := bind_ok h
    cases h
    rw [List.length_cons, takeStrs, takeChars_strBytes hw]
    show (takeStrs w l.length b' >>= fun l => .ok (Elt.str (stripNul '\x00' _) :: l)) = _
    rw [ih (fun e he => hl e (by simp [he])) hb, stripNul_replicate _ _ _ hn]
    rfl

theorem textBytes_of {w : Nat} {l : List Elt} (hl : ∀ e ∈ l, ∃ s, e = .str s) :
    ∃ b, textBytes w l = .ok b := by
  induction l with
  | nil => exact ⟨_, rfl⟩
  | cons e l ih =>
    obtain ⟨s, rfl⟩ := hl e (by simp)
    obtain ⟨b, hb⟩ := ih fun e he => hl e (by simp [he])
    exact ⟨_, by rw [textBytes, hb]; rfl⟩

theorem bytesOfElts_map (b : Bytes) : bytesOfElts (b.map fun x => .int x.toNat) = .ok b := by
  induction b with
  | nil => rfl
  | cons x b ih =>
    rw [List.map_cons, bytesOfElts, ih]
    simp [bind, Except.bind]

theorem mapLast_cons (g : Nat → Nat) (d : Nat) {l : List Nat} (h : l ≠ []) :
    mapLast g (d :: l) = d :: mapLast g l := by
  cases l with
  | nil => exact absurd rfl h
  | cons d' l => rfl

theorem mapLast_ne_nil {g : Nat → Nat} {l : List Nat} (h : l ≠ []) : mapLast g l ≠ [] := by
  cases l with
  | nil => exact absurd rfl h
  | cons d l => cases l <;> simp [mapLast]

theorem getLast?_mapLast (g : Nat → Nat) (l : List Nat) : (mapLast g l).getLast? = l.getLast?.map g := by
  induction l with
  | nil => rfl
  | cons d l ih =>
    cases l with
    | nil => rfl
    | cons d' l =>
      rw [mapLast]
      · have hn : mapLast g (d' :: l) ≠ [] := mapLast_ne_nil (by simp)
        obtain ⟨x, m, hm⟩ := List.exists_cons_of_ne_nil hn
        rw [hm] at ih ⊢
        rw [List.getLast?_cons_cons, ih, List.getLast?_cons_cons]
      · simp

theorem mapLast_mapLast (f g : Nat → Nat) (l : List Nat) : mapLast f (mapLast g l) = mapLast (f ∘ g) l := by
  induction l with
  | nil => rfl
  | cons d l ih =>
    cases l with
    | nil => rfl
    | cons d' l =>
      have hn : mapLast g (d' :: l) ≠ [] := mapLast_ne_nil (by simp)
      rw [mapLast_cons g d (by simp), mapLast_cons (f ∘ g) d (by simp), ← ih, mapLast_cons f d hn]

theorem mapLast_id (l : List Nat) : mapLast id l = l := by
  induction l with
  | nil => rfl
  | cons d l ih =>
    cases l with
    | nil => rfl
    | cons d' l => rw [mapLast_cons _ _ (by simp), ih]

/-- An array of strings comes back. -/
theorem strings_back {w : Nat} {a b : NdArr} (hw : 0 < w) (ha : KeptArray a) (ht : a.ty = .npStr)
    (hl : ∀ s, Elt.str s ∈ a.data → s.length ≤ w) (h : viewBytes w a = .ok b) :
    viewText w b = .ok a ∧ b.shape ≠ [] := by
  obtain ⟨ty, shape, data⟩ := a
  cases ht
  have hr : shape ≠ [] := ha.rank
  unfold viewBytes at h
  cases shape with
  | nil => exact absurd rfl hr
  | cons d ds =>
    obtain ⟨c, hc, h⟩ := bind_ok h
    cases h
    refine ⟨?_, mapLast_ne_nil hr⟩
    unfold viewText
    obtain ⟨x, hx⟩ : ∃ x, (d :: ds).getLast? = some x := by
      cases hx : (d :: ds).getLast? with
      | none => simp at hx
      | some x => exact ⟨x, rfl⟩
    rw [show (mapLast (· * (4 * w)) (d :: ds)).getLast? = some (x * (4 * w)) by
      rw [getLast?_mapLast, hx]; rfl]
    have hs : mapLast (· / (4 * w)) (mapLast (· * (4 * w)) (d :: ds)) = d :: ds := by
      rw [mapLast_mapLast]
      have : (fun x => x / (4 * w)) ∘ (fun x => x * (4 * w)) = id := by
        funext x; simp [Nat.mul_div_cancel x (show 0 < 4 * w by omega)]
      rw [this, mapLast_id]
    simp only [hs]
    rw [if_neg (by simp; omega), if_pos (by simp), bytesOfElts_map]
    have hp : prod (d :: ds) = data.length := ha.wf.symm
    show (takeStrs w (prod (d :: ds)) c >>= fun l => Except.ok (NdArr.mk .npStr (d :: ds) l)) = _
    rw [hp, takeStrs_textBytes _ hc]
    · rfl
    · intro e he
      obtain ⟨s, rfl, hn⟩ := ha.text rfl e he
      exact ⟨s, rfl, hn, hl s he⟩

/-! ## Values -/

/-- An attribute that is not a NumPy string comes back. -/
theorem attr_back {v : Val} {a : Attr} {t : Ty} (ht : IsScalar t v) (h1 : t ≠ .npStr) (h2 : t ≠ .npBytes)
    (h3 : t ≠ .pyInt) (h4 : t ≠ .pyFloat) (hk : KeptVal v) (h : storeAttr v = .ok a) : readAttr a = .ok v := by
  cases v with
  | py t' e =>
    cases ht
    unfold storeAttr at h
    split at h
    · rename_i s heq
      cases heq
      obtain ⟨b, hb, h⟩ := bind_ok h
      cases h
      rw [readAttr, text_back hb (hk _ rfl)]
      rfl
    all_goals first | (rename_i heq; cases heq; done) | skip
    all_goals first | cases h | skip
    all_goals simp_all
  | np t' e =>
    cases ht
    unfold storeAttr at h
    split at h <;> rename_i heq <;> try cases heq
    all_goals first | (cases h; rfl) | simp_all
  | arr a => cases ht

/-- A dataset comes back. -/
theorem dset_back {h : H5Cfg} (hf : h.Fits) {comp : Option PyStr} {a : NdArr} {d : Dset} (hk : KeptArray a)
    (hs : storeDset h comp (.arr a) = .ok d) : readDset d = .ok (.arr a) := by
  have hall : ∀ (b : NdArr) (i : Option Nat), b.shape ≠ [] → Dset.all ⟨b, i⟩ = .ok b := by
    intro b i hb
    unfold Dset.all
    split
    · rename_i h0; exact absurd h0 hb
    · rfl
  unfold storeDset at hs
  simp only at hs
  split at hs
  · cases hs
  · rename_i ht
    obtain ⟨b, hb, hs⟩ := bind_ok hs
    obtain ⟨_, _, hs⟩ := bind_ok hs
    cases hs
    obtain ⟨h1, h2⟩ := strings_back (hf a).1 hk ht (hf a).2 hb
    unfold readDset
    rw [hall _ _ h2]
    show (viewText (h.width a) b >>= fun x => Except.ok (Val.arr x)) = _
    rw [h1]; rfl
  · obtain ⟨_, _, hs⟩ := bind_ok hs
    cases hs
    unfold readDset
    rw [hall _ _ hk.rank]
    rfl

end Verif.Bor
