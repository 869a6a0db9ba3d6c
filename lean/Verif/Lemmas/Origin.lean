import Verif.Model.Origin
import Verif.Props.Https
import Verif.Props.Control
import Verif.Props.Timing

/-! # A command on its way to the leader: lemmas for C116 -/

namespace Bedrock.Origin
open Bedrock Bedrock.Text Bedrock.Http Bedrock.Https.Props Bedrock.Control.Props Bedrock.Json.Spec

/-! ## Reading -/

theorem message_of {s : Bytes} {m : Msg} (h : Https.message s = some m) : message s = .ok m := by
  unfold Https.message at h
  unfold message
  cases hp : parse s <;> rw [hp] at h <;> simp_all

theorem transaction_of {x : Bytes} {t : Https.Transaction} (h : (Https.object? x).bind Https.transaction = some t) :
    transaction x = .ok t := by
  unfold Https.object? at h
  unfold transaction
  cases hp : Json.parseObject (str "null") x with
  | abort => rw [hp] at h; simp at h
  | ok tab =>
    rw [hp] at h
    simp only [Option.bind_some] at h
    unfold Https.transaction at h
    dsimp only
    cases h1 : Https.message (Base64.decode (Https.get (str "fullRequest") tab)) with
    | none => rw [h1] at h; cases h
    | some a =>
      cases h2 : Https.message (Base64.decode (Https.get (str "fullResponse") tab)) with
      | none => rw [h1, h2] at h; cases h
      | some b =>
        rw [h1, h2] at h
        rw [message_of h1, message_of h2]
        injection h with h
        exact congrArg Read.ok h

theorem transactions_of {xs : List Bytes} {l : List Https.Transaction}
    (h : xs.mapM (fun x => (Https.object? x).bind Https.transaction) = some l) : transactions xs = .ok l := by
  induction xs generalizing l with
  | nil => cases h; rfl
  | cons x xs ih =>
    rw [List.mapM_cons] at h
    cases h1 : (Https.object? x).bind Https.transaction with
    | none => rw [h1] at h; cases h
    | some t =>
      cases h2 : xs.mapM (fun x => (Https.object? x).bind Https.transaction) with
      | none => rw [h1, h2] at h; cases h
      | some ts =>
        rw [h1, h2] at h
        cases h
        unfold transactions
        rw [transaction_of h1, ih h2]
        rfl

theorem results_of {s : Bytes} {l : List Https.Transaction} (h : Https.deserialize s = some l) : results s = .ok l := by
  unfold Https.deserialize at h
  unfold results
  split at h
  · rename_i h0
    rw [if_pos h0]
    cases h; rfl
  · rename_i h0
    rw [if_neg h0]
    cases hp : Json.parseArray (str "null") s with
    | abort => rw [hp] at h; cases h
    | ok xs => rw [hp] at h; exact transactions_of h

/-! ## Tables -/

theorem erase_sub (t : Table) (k : Bytes) : (t.erase k).Sublist t := by
  induction t with
  | nil => exact .slnil
  | cons e t ih =>
    obtain ⟨m, w⟩ := e
    rw [Table.erase]
    split
    · exact ih.cons_cons _
    · exact List.sublist_cons_self ..

theorem find_erase_same {t : Table} (k n : Bytes) (hs : t.Sorted) (h : sToLower n = sToLower k) :
    (t.erase k).find n = none := by
  cases hf : (t.erase k).find n with
  | none => rfl
  | some v =>
    exfalso
    induction t with
    | nil => cases hf
    | cons e t ih =>
      obtain ⟨m, w⟩ := e
      have hp := List.pairwise_cons.mp hs
      rw [Table.erase] at hf
      split at hf
      · rename_i hk
        rw [Table.find] at hf
        split at hf
        · exact ih hp.2 hf
        · rename_i h2
          rw [Bool.not_eq_true, key_eq_iff] at h2
          have := (key_eq_iff k m).mpr (h.symm.trans h2)
          rw [this] at hk
          cases hk
      · rename_i hk
        rw [Bool.not_eq_true, key_eq_iff] at hk
        obtain ⟨x, hx, hx2⟩ := Table.find_some_mem hf
        have := hp.1 _ hx
        have e : (keyLt m x || keyLt x m) = false := (key_eq_iff m x).mpr (hk.symm.trans (h.symm.trans hx2.symm))
        simp only [Bool.or_eq_false_iff] at e
        simp only at this
        rw [e.1] at this
        cases this

theorem find_congr (t : Table) {n k : Bytes} (h : sToLower n = sToLower k) : t.find n = t.find k := by
  induction t with
  | nil => rfl
  | cons e t ih =>
    obtain ⟨m, w⟩ := e
    have h1 : keyLt n m = keyLt k m := by unfold keyLt; rw [h]
    have h2 : keyLt m n = keyLt m k := by unfold keyLt; rw [h]
    rw [Table.find, Table.find, h1, h2, ih]

theorem Good.erase {m : Msg} (h : Good m) (k : Bytes) : Good { m with table := m.table.erase k } := by
  have hs := erase_sub m.table k
  exact ⟨⟨h.1.method, fun e he => h.1.ordinary e (hs.subset he), h.1.sorted.sublist hs, h.1.small⟩,
    fun e he => h.2 e (hs.subset he)⟩

theorem good_parse (gz : Bytes → Bytes) {m : Msg} (h : Good m) :
    ∃ b m', compose gz m = some b ∧ parse b = .ok b.length m' ∧ SameMsg m m' ∧ Good m' := by
  obtain ⟨b, hb⟩ := Http.Props.c22_composes gz m h.1
  obtain ⟨m', h1, h2, h3, h4⟩ := Http.Props.c22_round_trip gz m b [] h.1 h.2 hb
  rw [List.append_nil] at h1
  obtain ⟨b', m'', g1, _, g3, _, g5⟩ := good_message (gz := gz) h
  rw [hb] at g1
  cases g1
  unfold Https.message at g3
  rw [h1] at g3
  cases g3
  exact ⟨b, m', hb, h1, ⟨h2, h3, h4⟩, g5⟩

/-! ## One hop -/

/-- The same message, whatever its `Content-Length` says. -/
def LikeMsg (m m' : Msg) : Prop :=
  m'.methodLine = m.methodLine ∧ m'.content = m.content ∧
  ∀ name, sToLower name ≠ sToLower (str "Content-Length") → Table.find name m'.table = Table.find name m.table

/-- The same HTTPS request with the same result. -/
def Like (t t' : Https.Transaction) : Prop :=
  t'.created = t.created ∧ t'.finished = t.finished ∧ t'.timeoutAt = t.timeoutAt ∧ t'.response = t.response ∧
  LikeMsg t.fullRequest t'.fullRequest ∧ LikeMsg t.fullResponse t'.fullResponse

theorem SameMsg.like {m m' : Msg} (h : SameMsg m m') : LikeMsg m m' :=
  ⟨h.1, h.2.1, fun n hn => by rw [h.2.2 n, if_neg hn]⟩

theorem LikeMsg.refl (m : Msg) : LikeMsg m m := ⟨rfl, rfl, fun _ _ => rfl⟩

theorem LikeMsg.trans {a b c : Msg} (h : LikeMsg a b) (h' : LikeMsg b c) : LikeMsg a c :=
  ⟨h'.1.trans h.1, h'.2.1.trans h.2.1, fun n hn => (h'.2.2 n hn).trans (h.2.2 n hn)⟩

theorem Like.refl (t : Https.Transaction) : Like t t := ⟨rfl, rfl, rfl, rfl, .refl _, .refl _⟩

theorem Like.trans {a b c : Https.Transaction} (h : Like a b) (h' : Like b c) : Like a c :=
  ⟨h'.1.trans h.1, h'.2.1.trans h.2.1, h'.2.2.1.trans h.2.2.1, h'.2.2.2.1.trans h.2.2.2.1,
    h.2.2.2.2.1.trans h'.2.2.2.2.1, h.2.2.2.2.2.trans h'.2.2.2.2.2⟩

/-- A result that can be sent. -/
def Fine (t : Https.Transaction) : Prop :=
  (-2 ^ 31 ≤ t.response ∧ t.response < 2 ^ 31) ∧ Good t.fullRequest ∧ Good t.fullResponse

structure Fit (c : Cmd) : Prop where
  request : Good c.request
  id : Spec.GoodValue c.id
  data : Spec.GoodValue c.data
  https : ∀ t ∈ c.https, Fine t
  ok : c.failed = false
  noHttps : c.request.table.find sHttps = none
  noData : c.request.table.find sData = none
  named : c.request.table.find (str "requestID") ≠ none

/-- The same command, on another node. -/
structure Follows (c c' : Cmd) : Prop where
  id : c'.id = c.id
  method : c'.request.methodLine = c.request.methodLine
  content : c'.request.content = c.request.content
  headers : ∀ n, sToLower n ≠ sToLower (str "timeout") → sToLower n ≠ sToLower (str "ID") →
    sToLower n ≠ sToLower (str "Content-Length") → c'.request.table.find n = c.request.table.find n
  https : Pointwise Like c.https c'.https
  data : c'.data = c.data

theorem pointwise_refl {α : Type} {R : α → α → Prop} (h : ∀ a, R a a) (l : List α) : Pointwise R l l := by
  induction l with
  | nil => exact .nil
  | cons a l ih => exact .cons (h a) ih

theorem pointwise_trans {α : Type} {R : α → α → Prop} (h : ∀ {a b c}, R a b → R b c → R a c) {l l' l'' : List α}
    (h1 : Pointwise R l l') (h2 : Pointwise R l' l'') : Pointwise R l l'' := by
  induction h1 generalizing l'' with
  | nil => cases h2; exact .nil
  | cons hab _ ih =>
    cases h2 with
    | cons hbc h2 => exact .cons (h hab hbc) (ih h2)

theorem pointwise_mono {α : Type} {R S : α → α → Prop} (h : ∀ {a b}, R a b → S a b) {l l' : List α}
    (h1 : Pointwise R l l') : Pointwise S l l' := by
  induction h1 with
  | nil => exact .nil
  | cons hab _ ih => exact .cons (h hab) ih

theorem pointwise_append {α : Type} {R : α → α → Prop} {a b c d : List α} (h : Pointwise R a b) (h' : Pointwise R c d) :
    Pointwise R (a ++ c) (b ++ d) := by
  induction h with
  | nil => exact h'
  | cons hab _ ih => exact .cons hab ih

theorem pointwise_mem {α : Type} {R : α → α → Prop} {l l' : List α} (h : Pointwise R l l') {b : α} (hb : b ∈ l') :
    ∃ a ∈ l, R a b := by
  induction h with
  | nil => cases hb
  | cons hab _ ih =>
    rcases List.mem_cons.mp hb with rfl | hb
    · exact ⟨_, List.mem_cons_self .., hab⟩
    · obtain ⟨a, ha, h⟩ := ih hb
      exact ⟨a, List.mem_cons_of_mem _ ha, h⟩

theorem Follows.refl (c : Cmd) : Follows c c := ⟨rfl, rfl, rfl, fun _ _ _ _ => rfl, pointwise_refl Like.refl _, rfl⟩

theorem plain_name (n : Bytes) (h : n ≠ []) (h1 : ∀ c ∈ n, 65 ≤ c ∧ c ≤ 122) : Spec.GoodName n := by
  refine ⟨h, ?_, ?_, ?_, ?_, ?_⟩
  · intro c hc
    have := h1 c hc
    constructor <;> (rintro rfl; exact absurd this.1 (by decide))
  · intro hc; exact absurd (h1 _ hc).1 (by decide)
  · intro hc; exact absurd (h1 _ hc).1 (by decide)
  · intro c hc hm
    have := (h1 c (List.mem_of_mem_head? hc)).1
    simp only [List.mem_cons, List.not_mem_nil, or_false] at hm
    rcases hm with rfl | rfl | rfl | rfl <;> exact absurd this (by decide)
  · intro hc; exact absurd (h1 _ (List.mem_of_getLast? hc)).1 (by decide)

theorem name_timeout : Spec.GoodName (str "timeout") ∧ Free (str "timeout") :=
  ⟨plain_name _ (by decide +kernel) (by decide +kernel), by unfold Free Spec.sameName; decide +kernel⟩
theorem name_id : Spec.GoodName (str "ID") ∧ Free (str "ID") :=
  ⟨plain_name _ (by decide +kernel) (by decide +kernel), by unfold Free Spec.sameName; decide +kernel⟩
theorem name_https : Spec.GoodName sHttps ∧ Free sHttps :=
  ⟨plain_name _ (by decide +kernel) (by decide +kernel), by unfold Free Spec.sameName; decide +kernel⟩
theorem name_data : Spec.GoodName sData ∧ Free sData :=
  ⟨plain_name _ (by decide +kernel) (by decide +kernel), by unfold Free Spec.sameName; decide +kernel⟩
theorem name_source : Spec.GoodName (str "_source") ∧ Free (str "_source") :=
  ⟨plain_name _ (by decide +kernel) (by decide +kernel), by unfold Free Spec.sameName; decide +kernel⟩
theorem name_requestID : Spec.GoodName (str "requestID") ∧ Free (str "requestID") :=
  ⟨plain_name _ (by decide +kernel) (by decide +kernel), by unfold Free Spec.sameName; decide +kernel⟩

/-- What is sent. -/
theorem wire_fit (gz : Bytes → Bytes) (isFloat : Bytes → Bool) (hF : ∀ v, isFloat v = true → Number v) (timeout : Nat)
    {c : Cmd} (h : Fit c) :
    ∃ m l', wire gz isFloat timeout c = some m ∧ Good m ∧ m.methodLine = c.request.methodLine ∧
      m.content = c.request.content ∧ results (m.table.get sHttps) = .ok l' ∧ Pointwise Like c.https l' ∧
      (∀ t ∈ l', Fine t) ∧ m.table.get sData = c.data ∧ m.table.find (str "ID") = some c.id ∧
      ∀ n, sToLower n ≠ sToLower (str "timeout") → sToLower n ≠ sToLower (str "ID") → sToLower n ≠ sToLower sHttps →
        sToLower n ≠ sToLower sData → m.table.find n = c.request.table.find n := by
  have hg1 := h.request.set name_timeout.1 name_timeout.2 (good_natDec timeout)
  -- the results
  obtain ⟨t2, l', w2, hg2, r2, p2, q2, f2⟩ : ∃ t2 l', (if c.https = [] then some (c.request.table.set (str "timeout") (natDec timeout))
      else (Https.serialize gz isFloat c.https).map fun s => (c.request.table.set (str "timeout") (natDec timeout)).set sHttps s) =
        some t2 ∧ Good { c.request with table := t2 } ∧ results (t2.get sHttps) = .ok l' ∧ Pointwise Like c.https l' ∧
      (∀ t ∈ l', Fine t) ∧ ∀ n, sToLower n ≠ sToLower (str "timeout") → sToLower n ≠ sToLower sHttps →
        t2.find n = c.request.table.find n := by
    by_cases hl : c.https = []
    · rw [if_pos hl]
      refine ⟨_, [], rfl, hg1, ?_, by rw [hl]; exact .nil, by simp, fun n hn _ => find_set_other _ _ _ _ hn⟩
      unfold Table.get
      rw [find_set_other _ _ _ _ (by decide +kernel), h.noHttps]
      rfl
    · rw [if_neg hl]
      obtain ⟨s, l', h1, h2, h3, h4, h5⟩ := round_trip gz isFloat hF c.https h.https
      refine ⟨_, l', by rw [h1]; rfl, hg1.set name_https.1 name_https.2 h2, ?_,
        pointwise_mono (fun h => ⟨h.1, h.2.1, h.2.2.1, h.2.2.2.1, SameMsg.like h.2.2.2.2.1, SameMsg.like h.2.2.2.2.2⟩) h4, ?_,
        fun n hn hn' => by rw [find_set_other _ _ _ _ hn', find_set_other _ _ _ _ hn]⟩
      · unfold Table.get
        rw [find_set_same]
        exact results_of h3
      · intro t ht
        obtain ⟨t0, ht0, hs⟩ := pointwise_mem h4 ht
        refine ⟨?_, h5 t ht⟩
        rw [hs.2.2.2.1]
        exact (h.https t0 ht0).1
  -- the data
  obtain ⟨t3, w3, hg3, d3, f3⟩ : ∃ t3, (if c.data = [] then t2 else t2.set sData c.data) = t3 ∧
      Good { c.request with table := t3 } ∧ t3.get sData = c.data ∧ ∀ n, sToLower n ≠ sToLower sData → t3.find n = t2.find n := by
    by_cases hd : c.data = []
    · rw [if_pos hd]
      refine ⟨_, rfl, hg2, ?_, fun _ _ => rfl⟩
      unfold Table.get
      rw [f2 _ (by decide +kernel) (by decide +kernel), h.noData, hd]
      rfl
    · rw [if_neg hd]
      refine ⟨_, rfl, hg2.set name_data.1 name_data.2 h.data, ?_, fun n hn => find_set_other _ _ _ _ hn⟩
      unfold Table.get
      rw [find_set_same]
      rfl
  refine ⟨{ c.request with table := t3.set (str "ID") c.id }, l', ?_, hg3.set name_id.1 name_id.2 h.id, rfl, rfl, ?_, p2, q2,
    ?_, find_set_same _ _ _, ?_⟩
  · unfold wire
    dsimp only
    rw [w2, Option.map_some, w3]
  · show results ((t3.set (str "ID") c.id).get sHttps) = _
    unfold Table.get at r2 ⊢
    rw [find_set_other _ _ _ _ (by decide +kernel), f3 _ (by decide +kernel)]
    exact r2
  · show (t3.set (str "ID") c.id).get sData = _
    unfold Table.get at d3 ⊢
    rw [find_set_other _ _ _ _ (by decide +kernel)]
    exact d3
  · intro n h1 h2 h3 h4
    show (t3.set (str "ID") c.id).find n = _
    rw [find_set_other _ _ _ _ h2, f3 n h4, f2 n h1 h3]

theorem preprocess_named {rand : Fin 6 → UInt64} {t : Table} (h : t.find (str "requestID") ≠ none) :
    Timing.preprocess rand t = t := by
  unfold Timing.preprocess
  split
  · rfl
  · rename_i h0; exact absurd h0 h

theorem early_congr {r r' : Msg} (now : Nat) (h1 : r'.table.find (str "Connection") = r.table.find (str "Connection"))
    (h2 : r'.table.find (str "commandExecuteTime") = r.table.find (str "commandExecuteTime")) : early r' now = early r now := by
  unfold early Control.calc64 Table.get
  rw [h1, h2]

/-- One hop. -/
theorem hop_fit (gz : Bytes → Bytes) (isFloat : Bytes → Bool) (hF : ∀ v, isFloat v = true → Number v) (timeout : Nat)
    (a : Arrival) {c : Cmd} (h : Fit c) :
    (early c.request a.now = true ∧ a.running = false ∧ step gz isFloat c (.hop timeout a) = some .dropped) ∨
    ∃ c', step gz isFloat c (.hop timeout a) = some (.cmd c') ∧ Fit c' ∧ Follows c c' := by
  obtain ⟨m, l', w, g, e1, e2, e4, e50, e51, e6, e7, e8⟩ := wire_fit gz isFloat hF timeout h
  obtain ⟨b, m', k1, k2, k3, k4⟩ := good_parse gz g
  have hstep : step gz isFloat c (.hop timeout a) = some (build m' { a with priv := true }) := by
    unfold step
    dsimp only
    rw [w]
    simp only [Option.bind_some]
    rw [k1]
    dsimp only
    rw [k2]
  have hf : ∀ n, sToLower n ≠ sToLower (str "Content-Length") → m'.table.find n = m.table.find n :=
    fun n hn => by rw [k3.2.2 n, if_neg hn]
  have he : early m' a.now = early c.request a.now := by
    refine early_congr _ ?_ ?_
    · rw [hf _ (by decide +kernel), e8 _ (by decide +kernel) (by decide +kernel) (by decide +kernel) (by decide +kernel)]
    · rw [hf _ (by decide +kernel), e8 _ (by decide +kernel) (by decide +kernel) (by decide +kernel) (by decide +kernel)]
  rw [hstep]
  by_cases hd : (early c.request a.now && !a.running) = true
  · left
    rw [Bool.and_eq_true, Bool.not_eq_true'] at hd
    refine ⟨hd.1, hd.2, ?_⟩
    unfold build
    rw [if_pos (by simp [he, hd.1, hd.2])]
  · right
    have hb : ∀ n, sToLower n ≠ sToLower sHttps → sToLower n ≠ sToLower sData →
        (Control.build m' a.ip true).table.find n = m'.table.find n :=
      fun n h1 h2 => build_local m' (.inl rfl) h1 h2
    have hn : (Control.build m' a.ip true).table.find (str "requestID") ≠ none := by
      rw [hb _ (by decide +kernel) (by decide +kernel), hf _ (by decide +kernel), e8 _ (by decide +kernel) (by decide +kernel)
        (by decide +kernel) (by decide +kernel)]
      exact h.named
    have hq : Good (Control.build m' a.ip true) := (Good.erase (Good.erase k4 _) _)
    have hres : results (m'.table.get sHttps) = .ok l' := by
      unfold Table.get at e4 ⊢
      rw [hf _ (by decide +kernel)]; exact e4
    have hdat : m'.table.get sData = c.data := by
      unfold Table.get at e6 ⊢
      rw [hf _ (by decide +kernel)]; exact e6
    have hid : (Control.build m' a.ip true).table.find (str "ID") = some c.id := by
      rw [hb _ (by decide +kernel) (by decide +kernel), hf _ (by decide +kernel)]; exact e7
    refine ⟨⟨c.id, Control.build m' a.ip true, l', c.data, false, !early m' a.now⟩, ?_, ?_, ?_⟩
    · unfold build
      rw [if_neg (by rw [he]; exact hd)]
      dsimp only
      rw [hres, preprocess_named hn, hid, hdat]
      rfl
    · refine ⟨hq, h.id, h.data, e51, rfl, ?_, ?_, hn⟩
      · show ((m'.table.erase sHttps).erase sData).find sHttps = none
        rw [find_erase_other _ _ _ (by decide +kernel)]
        exact find_erase_same _ _ k4.1.sorted rfl
      · show ((m'.table.erase sHttps).erase sData).find sData = none
        exact find_erase_same _ _ (k4.1.sorted.sublist (erase_sub _ _)) rfl
    · refine ⟨rfl, k3.1.trans e1, k3.2.1.trans e2, ?_, e50, rfl⟩
      intro n n1 n2 n3
      by_cases n4 : sToLower n = sToLower sHttps
      · have : (Control.build m' a.ip true).table.find n = none := by
          show ((m'.table.erase sHttps).erase sData).find n = none
          rw [find_erase_other _ _ _ (by rw [n4]; decide +kernel)]
          exact find_erase_same _ _ k4.1.sorted n4
        rw [this]
        rw [find_congr _ n4, h.noHttps]
      · by_cases n5 : sToLower n = sToLower sData
        · have : (Control.build m' a.ip true).table.find n = none := by
            show ((m'.table.erase sHttps).erase sData).find n = none
            exact find_erase_same _ _ (k4.1.sorted.sublist (erase_sub _ _)) n5
          rw [this]
          rw [find_congr _ n5, h.noData]
        · show (Control.build m' a.ip true).table.find n = _
          rw [hb n n4 n5, hf n n3, e8 n n1 n2 n4 n5]

end Bedrock.Origin
