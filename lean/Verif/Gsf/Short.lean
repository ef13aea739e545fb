import Verif.Gsf.HeadRT
import Verif.Gsf.Trunc

/-!
# Reading from a stream that ends too early

`Fails m bs k`: if the stream ends before the last `k` bytes of `bs` have begun, `m` does not succeed.
-/

namespace Verif.Gsf

open Verif

/-- From `p` on the stream holds a first part of `bs`, and lacks more than the last `k` bytes of it. -/
def Short (s : Stream) (p : Nat) (bs : Bytes) (k : Nat) : Prop :=
  s.base ≤ p ∧ s.buf.drop (p - s.base) <+: bs ∧ (s.buf.drop (p - s.base)).length + k < bs.length

/-- `m` raises. -/
def Bad (m : Rd α) (s : Stream) (p : Nat) : Prop := ∀ r, m s p ≠ .ok r

def Fails (m : Rd α) (bs : Bytes) (k : Nat) : Prop := ∀ s p, Short s p bs k → Bad m s p

theorem Short.split {s p x y k} (h : Short s p (x ++ y) k) :
    Short s p x 0 ∨ (At s p x ∧ Short s (p + x.length) y k) := by
  obtain ⟨hb, hp, hl⟩ := h
  by_cases hx : (s.buf.drop (p - s.base)).length < x.length
  · exact .inl ⟨hb, List.prefix_of_prefix_length_le hp (List.prefix_append x y) (by omega), by omega⟩
  · right
    have hxp : x <+: s.buf.drop (p - s.base) :=
      List.prefix_of_prefix_length_le (List.prefix_append x y) hp (by omega)
    refine ⟨⟨hb, hxp⟩, by omega, ?_⟩
    obtain ⟨t, ht⟩ := hxp
    have e : p + x.length - s.base = (p - s.base) + x.length := by omega
    rw [e, ← List.drop_drop]
    rw [← ht] at hp hl ⊢
    rw [List.drop_left]
    rw [List.prefix_append_right_inj] at hp
    simp only [List.length_append] at hl
    exact ⟨hp, by omega⟩

theorem Short.fin {s p bs k} (h : Short s p bs k) : s.fin + k < p + bs.length := by
  obtain ⟨hb, -, hl⟩ := h
  simp only [List.length_drop] at hl
  unfold Stream.fin
  omega

theorem Short.zero {s p bs k} (h : Short s p bs k) : Short s p bs 0 := ⟨h.1, h.2.1, by have := h.2.2; omega⟩

theorem Bad.bind {m : Rd α} {f : α → Rd β} {s p} (h : Bad m s p) : Bad (m >>= f) s p := by
  intro r hr
  obtain ⟨a, q, h1, _⟩ := Rd.bind_ok hr
  exact h _ h1

theorem Fails.bindPure {m : Rd α} {f : α → Rd β} {x k} (h : Fails m x k) : Fails (m >>= f) x k :=
  fun s p hs => (h s p hs).bind

theorem Fails.bind {m : Rd α} {f : α → Rd β} {x y a k} (h1 : Reads m x a) (h2 : Fails m x 0)
    (h3 : Fails (f a) y k) : Fails (m >>= f) (x ++ y) k := by
  intro s p hs
  rcases hs.split with h | ⟨h, h'⟩
  · exact (h2 s p h).bind
  · intro r hr
    rw [Rd.bind_of_ok (h1 s p h)] at hr
    exact h3 _ _ h' r hr

/-- The same when the continuation depends on the position. -/
theorem bad_bind {m : Rd α} {f : α → Rd β} {s p x y a k} (h1 : Reads m x a) (h2 : Fails m x 0)
    (hs : Short s p (x ++ y) k) (h3 : Short s (p + x.length) y k → Bad (f a) s (p + x.length)) :
    Bad (m >>= f) s p := by
  rcases hs.split with h | ⟨h, h'⟩
  · exact (h2 s p h).bind
  · intro r hr
    rw [Rd.bind_of_ok (h1 s p h)] at hr
    exact h3 h' r hr

/-! ## Fields -/

theorem fails_exact {n : Nat} {bs : Bytes} (h : bs.length = n) : Fails (readExact n) bs 0 := by
  intro s p hs r hr
  obtain ⟨bs', q⟩ := r
  obtain ⟨h1, h2, -⟩ := readExact_ok hr
  have := hs.2.2
  rw [h1] at h2
  simp only [List.length_take] at h2
  omega

theorem fails_uint {n : Nat} {bs : Bytes} (h : bs.length = n) : Fails (readUint n) bs 0 :=
  (fails_exact h).bindPure

theorem fails_sint {n : Nat} {bs : Bytes} (h : bs.length = n) : Fails (readSint n) bs 0 :=
  (fails_uint h).bindPure

theorem fails_string {n : Nat} {bs : Bytes} (h : bs.length = n) : Fails (readString n) bs 0 :=
  (fails_exact h).bindPure

theorem fails_varstring {bs : Bytes} (h : bs.length < 2 ^ 16) :
    Fails readVarstring (encodeUint bs.length 2 ++ bs) 0 := by
  unfold readVarstring
  exact Fails.bind (reads_uint (by omega)) (fails_uint (by simp)) (fails_string rfl)

theorem fails_datetime (d : DateTime) (hd : d.Valid) :
    Fails readDatetime (encodeSint d.year 2 ++ (encodeUint d.month 1 ++ (encodeUint d.day 1 ++
      (encodeUint d.hour 1 ++ (encodeUint d.minute 1 ++ encodeUint d.second 1))))) 0 := by
  have h31 : daysInMonth d.year d.month ≤ 31 := by
    unfold daysInMonth; repeat' split
    all_goals omega
  obtain ⟨a1, a2, a3, a4, a5, a6, a7, a8, a9⟩ := hd
  unfold readDatetime
  apply Fails.bind (reads_sint (by omega) _ (by simp; omega) (by simp; omega)) (fails_sint (by simp))
  apply Fails.bind (reads_uint (by omega)) (fails_uint (by simp))
  apply Fails.bind (reads_uint (by omega)) (fails_uint (by simp))
  apply Fails.bind (reads_uint (by omega)) (fails_uint (by simp))
  apply Fails.bind (reads_uint (by omega)) (fails_uint (by simp))
  exact (fails_uint (by simp)).bindPure

/-! ## Blocks -/

/-- Without the eight bytes of a block header no block can be entered. -/
theorem bad_enter {want r s p} (hb : s.base ≤ p) (h : s.fin < p + 8) : Bad (enter want r) s p := by
  intro x hx
  obtain ⟨b, q⟩ := x
  have := enter_ok hb hx
  omega

/-- With them, a block of the wanted kind is entered. -/
theorem enter_hdr {s p} {b : Blk} {t want r} (h : At s p (b.tb ++ encodeUint b.size 4)) (hb : b.Ok t)
    (hw : want = none ∨ want = some t) :
    enter want r s p = .ok (⟨p, b.size, t⟩, p + 8) := by
  rw [enter_eq _ _ _ _ h.base, readHeader_hdr h hb.tbLen hb.tagOk hb.notSig hb.sizeLt]
  simp only [hw, if_true]

/-- The last of a list of child blocks does not tolerate losing more than its last `k` bytes. -/
inductive LastFails (f : Block → σ → Rd σ) : List Blk → Nat → Prop where
  | nil : LastFails f [] 0
  | last {b : Blk} {t : List Char} {k} : b.Ok t →
      (∀ s p st, Short s (p + 8) b.body k → Bad (f ⟨p, b.size, t⟩ st) s (p + 8)) → LastFails f [b] k
  | cons {b : Blk} {rest : List Blk} {k} : rest ≠ [] → LastFails f rest k → LastFails f (b :: rest) k

theorem LastFails.append {f : Block → σ → Rd σ} {l k} (h : LastFails f l k) (hne : l ≠ []) :
    ∀ l0 : List Blk, LastFails f (l0 ++ l) k
  | [] => h
  | b :: l0 => .cons (by simp [hne]) (LastFails.append h hne l0)

theorem bad_children {f : Block → σ → Rd σ} {blks st st' k} (h : ChildrenRead f blks st st')
    (hl : LastFails f blks k) {s p} (hs : Short s p (blksBytes blks) k) (b : Block)
    (hend : b.start + b.size = p + (blksBytes blks).length) : Bad (forChildren b f st) s p := by
  induction h generalizing p with
  | nil st => exact absurd hs.2.2 (by simp)
  | @cons blk t rest st st1 st2 hok hc hcr ih =>
    have hlen := hok.length
    have hl8 : (blk.tb ++ encodeUint blk.size 4).length = 8 := by simp [hok.tbLen]
    rw [blksBytes_cons, List.length_append] at hend
    rw [blksBytes_cons] at hs
    intro r hr
    rw [forChildren_eq _ _ _ _ _ hs.1, if_pos (by omega)] at hr
    rcases hs.split with h1 | ⟨h1, h2⟩
    · -- the stream ends inside this block
      have h1' := h1
      unfold Blk.bytes at h1
      rw [← List.append_assoc] at h1
      rcases h1.split with h3 | ⟨h3, h4⟩
      · have := h3.fin
        cases he : enter none false s p with
        | error e => rw [he] at hr; simp at hr
        | ok v => exact bad_enter hs.1 (by omega) _ he
      · rw [enter_hdr h3 hok (.inl rfl)] at hr
        simp only at hr
        rw [hl8] at h4
        cases hl with
        | @last _ t' _ hok' hf =>
          have ht : t' = t := Option.some.inj (hok'.tagOk.symm.trans hok.tagOk)
          subst ht
          have hs' : Short s (p + 8) blk.body k := by
            refine ⟨h4.1, h4.2.1, ?_⟩
            have := hs.fin
            have hfin := h4.fin
            have h8 := h3.len (by omega)
            have hbl := blk.length_eq hok.tbLen
            simp only [blksBytes_nil, List.append_nil] at this
            simp only [List.length_drop]
            have := hs.1
            unfold Stream.fin at *
            omega
          cases hb : f ⟨p, blk.size, t'⟩ st s (p + 8) with
          | error e => rw [hb] at hr; simp at hr
          | ok v => exact hf s p st hs' v hb
        | cons hne hl' =>
          cases hb : f ⟨p, blk.size, t⟩ st s (p + 8) with
          | error e => rw [hb] at hr; simp at hr
          | ok v =>
            rw [hb] at hr
            simp only at hr
            have hb' := hs.1
            have hep : (⟨p, blk.size, t⟩ : Block).endPos = p + blk.bytes.length := by
              simp only [Block.endPos, hlen]
            rw [hep] at hr
            have hf := h1'.fin
            have hrest : 8 ≤ (blksBytes rest).length := by
              cases rest with
              | nil => exact absurd rfl hne
              | cons c rest =>
                cases hcr with
                | cons hok2 _ _ =>
                  have := hok2.length
                  rw [blksBytes_cons, List.length_append]
                  omega
            rw [forChildren_eq _ _ _ _ _ (by omega), if_pos (by omega)] at hr
            cases he : enter none false s (p + blk.bytes.length) with
            | error e => rw [he] at hr; simp at hr
            | ok v => exact bad_enter (by omega) (by omega) _ he
    · rw [enter_blk h1 hok (.inl rfl)] at hr
      obtain ⟨q, hq⟩ := hc s p h1
      simp only [hq, Block.endPos] at hr
      rw [← hlen] at hr
      cases hl with
      | last hok' hf =>
        exact absurd h2.2.2 (by simp)
      | cons hne hl' => exact ih hl' h2 (by omega) r hr

/-! ## The parts of a head -/

theorem fails_tagBody {t : List Char × List Char} (h : TagOk t) : Fails readTagBody (tagBlk t).body 0 := by
  unfold readTagBody tagBlk mkBlk
  have h1 := tagString_length t.1
  have h2 := tagString_length t.2
  apply Fails.bind (reads_varstring h.1) (fails_varstring (by omega))
  exact (fails_varstring (by omega)).bindPure

/-- Flow data is read without checking that it is all there. -/
theorem fails_flowBody {f : FlowIn} (h : f.Ok) : Fails readFlowBody (flowBlk f).body f.data.length := by
  obtain ⟨⟨h1, h2⟩, h3, h4, h5, h6⟩ := h
  unfold readFlowBody flowBlk mkBlk
  apply Fails.bind (reads_uuid h1) (fails_exact h1)
  apply Fails.bind (reads_uuid h2) (fails_exact h2)
  apply Fails.bind (reads_padString h3 h4) (fails_string (by simp))
  apply Fails.bindPure
  unfold readVarbytes
  intro s p hs
  rcases hs.split with h | ⟨-, h⟩
  · exact (fails_uint (by simp) s p h).bind
  · exact absurd h.2.2 (by omega)

/-- The flow data at the very end of a segment header. -/
def SegmIn.slack (sg : SegmIn) : Nat :=
  if sg.tags = [] then (match sg.flow with | none => 0 | some f => f.data.length) else 0

theorem lastFails_tags {f : Block → σ → Rd σ} {ts : List (List Char × List Char)} (hne : ts ≠ [])
    (hf : ∀ t ∈ ts, ∀ s p st, Short s (p + 8) (tagBlk t).body 0 → Bad (f ⟨p, (tagBlk t).size, tTag⟩ st) s (p + 8)) :
    LastFails f (ts.map tagBlk) 0 := by
  induction ts with
  | nil => exact absurd rfl hne
  | cons t ts ih =>
    cases ts with
    | nil => exact .last (tagBlk_ok t) (hf t (by simp))
    | cons t' ts => exact .cons (by simp) (ih (by simp) (fun t ht => hf t (by simp [ht])))

theorem segmKids_last {sg : SegmIn} (h : sg.Ok) : LastFails segmChild (segmKids sg) sg.slack := by
  unfold segmKids SegmIn.slack
  by_cases ht : sg.tags = []
  · rw [if_pos ht, ht]
    cases hfl : sg.flow with
    | none => exact .nil
    | some f =>
      have hf := h.2.2.2.1 f hfl
      refine .last (flowBlk_ok hf) ?_
      intro s p st hs
      unfold segmChild
      rw [if_pos rfl]
      exact (fails_flowBody hf s _ hs).bind
  · rw [if_neg ht]
    apply LastFails.append _ (by simpa using ht)
    apply lastFails_tags ht
    intro t htm s p st hs
    unfold segmChild
    rw [if_neg (by simp), if_pos rfl]
    exact (fails_tagBody (h.2.2.2.2 t htm) s _ hs).bind

theorem segmBody_fails {sg : SegmIn} (h : sg.Ok) {s p} (hs : Short s (p + 8) (segmBlk sg).body sg.slack) :
    Bad (readSegmBody ⟨p, (segmBlk sg).size, tSegm⟩) s (p + 8) := by
  unfold readSegmBody segmBlk mkBlk
  unfold segmBlk mkBlk at hs
  simp only at hs
  refine bad_bind (reads_uint (by have := h.2.1; omega)) (fails_uint (by simp)) hs fun hs => ?_
  refine bad_bind (reads_uuid h.1) (fails_exact h.1) hs fun hs => ?_
  refine bad_bind (reads_sint (by omega) _ (by have := h.2.2.1; simp; omega)
    (by have := h.2.2.1; simp; omega)) (fails_sint (by simp)) hs fun hs => ?_
  refine bad_children (segmKids_read h _ rfl rfl) (segmKids_last h) hs _ ?_
  simp only [List.length_append, encodeUint_length, encodeSint_length, h.1]; omega

theorem lastFails_segms {sgs : List SegmIn} (h : ∀ sg ∈ sgs, sg.Ok)
    (hs : (sgs.map segmBlockSize).sum < 2 ^ 32) :
    LastFails headChild (sgs.map segmBlk) ((sgs.getLast?.map SegmIn.slack).getD 0) := by
  induction sgs with
  | nil => exact .nil
  | cons sg sgs ih =>
    rw [List.map_cons, List.sum_cons] at hs
    cases sgs with
    | nil =>
      refine .last (t := tSegm) ?_ ?_
      · rw [segmBlk_eq]
        refine mkBlk_ok tc tne ?_
        have := segmBlk_size sg (h sg (by simp)).wf
        rw [segmBlk_eq] at this
        unfold mkBlk at this
        simp only at this
        omega
      · intro s p st hsh
        unfold headChild
        rw [if_pos rfl]
        exact (segmBody_fails (h sg (by simp)) hsh).bind
    | cons sg' sgs =>
      have := ih (fun sg hx => h sg (by simp [hx])) (by omega)
      refine .cons (by simp) ?_
      rw [List.getLast?_cons_cons]
      exact this

/-- The flow data at the very end of a head: zero unless nothing follows it. -/
def HeadIn.slack (h : HeadIn) : Nat :=
  if h.tags = [] then (h.segments.getLast?.map SegmIn.slack).getD 0 else 0

theorem headKids_last {h : HeadIn} (w : h.Ok) : LastFails headChild (headKids h) h.slack := by
  unfold headKids HeadIn.slack
  by_cases ht : h.tags = []
  · rw [if_pos ht, ht]
    simp only [List.map_nil, List.append_nil]
    have hs := w.2.2.2.2
    unfold headSize at hs
    exact lastFails_segms w.2.2.1 (by omega)
  · rw [if_neg ht]
    apply LastFails.append _ (by simpa using ht)
    apply lastFails_tags ht
    intro t htm s p st hs
    unfold headChild
    rw [if_neg (by simp), if_pos rfl]
    exact (fails_tagBody (w.2.2.2.1 t htm) s _ hs).bind

theorem decodeHead_fails {h : HeadIn} (w : h.Ok) {s p} (hs : Short s (p + 8) (headBlk h).body h.slack) :
    Bad (decodeHead ⟨p, (headBlk h).size, tHead⟩) s (p + 8) := by
  have hw := w.2.2.2.2
  unfold headSize at hw
  unfold decodeHead headBlk mkBlk headFixed
  unfold headBlk mkBlk headFixed at hs
  simp only at hs
  rw [List.append_assoc] at hs
  refine bad_bind (reads_uuid w.1) (fails_exact w.1) hs fun hs => ?_
  refine bad_bind (reads_datetime _ w.2.1) (fails_datetime _ w.2.1) hs fun hs => ?_
  have hk : ChildrenRead headChild (headKids h) ⟨h.id, h.created, [], []⟩ h.toHead := by
    unfold headKids
    exact ChildrenRead.append (headSegms_read (decoSegms_self w.2.2.1 (by omega)) w.2.2.1 _)
      (headTags_read h.tags w.2.2.2.1 _)
  refine bad_children hk (headKids_last w) hs _ ?_
  simp only [List.length_append, encodeUint_length, encodeSint_length, w.1]
  omega

/-- A head that ends before its trailing flow data begins is not decoded. -/
theorem decodeHeadBlock_fails {h : HeadIn} (w : h.Ok) : Fails decodeHeadBlock (headBlk h).bytes h.slack := by
  intro s p hs
  have hok := (decoHead_self w).ok
  have hs' := hs
  unfold Blk.bytes at hs'
  rw [← List.append_assoc] at hs'
  have hl8 : ((headBlk h).tb ++ encodeUint (headBlk h).size 4).length = 8 := by simp [hok.tbLen]
  unfold decodeHeadBlock
  rcases hs'.split with h1 | ⟨h1, h2⟩
  · have := h1.fin
    exact (bad_enter hs.1 (by omega)).bind
  · intro r hr
    rw [Rd.bind_of_ok (enter_hdr h1 hok (.inr rfl))] at hr
    obtain ⟨x, q, h3, -⟩ := Rd.bind_ok hr
    rw [hl8] at h2
    unfold Block.inRemaining at h3
    have hbl := (headBlk h).length_eq hok.tbLen
    have hlen := hok.length
    have e : (((⟨p, (headBlk h).size, tHead⟩ : Block).start : Int) + (⟨p, (headBlk h).size, tHead⟩ : Block).size
        - (p + 8 : Nat)).toNat = (headBlk h).body.length := by
      have : 8 ≤ (headBlk h).size := by unfold headBlk mkBlk; simp only; omega
      simp only; omega
    simp only at e
    simp only [e] at h3
    have e2 : (s.buf.drop (p + 8 - s.base)).take (headBlk h).body.length = s.buf.drop (p + 8 - s.base) := by
      apply List.take_of_length_le
      have := h2.2.2
      omega
    rw [e2] at h3
    split at h3
    · rename_i hx
      refine decodeHead_fails w (s := ⟨p + 8, s.buf.drop (p + 8 - s.base)⟩) (p := p) ?_ _ hx
      refine ⟨Nat.le_refl _, ?_⟩
      simp only [Nat.sub_self, List.drop_zero]
      exact h2.2
    · simp at h3

end Verif.Gsf
