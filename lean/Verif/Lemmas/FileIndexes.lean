import Verif.Props.ConfigFile
import Verif.Spec.Cache

/-! # The index configuration that is read from a file -/

namespace Ckube
open Spec

theorem foldlM_inv {α β : Type} {f : α → β → Option α} {P : α → Prop} (hf : ∀ a b a', P a → f a b = some a' → P a') :
    ∀ (l : List β) (a a' : α), P a → l.foldlM f a = some a' → P a'
  | [], a, a', h, e => by
    simp only [List.foldlM_nil] at e
    obtain rfl := Option.some.inj e
    exact h
  | b :: l, a, a', h, e => by
    rw [List.foldlM_cons] at e
    obtain ⟨a1, h1, h2⟩ := Option.bind_eq_some_iff.mp e
    exact foldlM_inv hf l a1 a' (hf a b a1 h h1) h2

theorem readIndex_isMap {old m : List (Str × Str)} {x : JV} (ho : IsMap old) (h : readIndex old x = some m) : IsMap m := by
  cases x with
  | null =>
    obtain rfl := Option.some.inj h
    exact List.Pairwise.nil
  | obj ms =>
    refine foldlM_inv (P := IsMap) ?_ ms old m ho h
    intro a b a' ha hb
    obtain ⟨v, -, rfl⟩ := Option.map_eq_some_iff.mp hb
    exact isMap_insertKV ha
  | _ => exact absurd h (by simp [readIndex])

theorem readProxy_isMap {p q : ProxyConf} {x : JV} (hp : IsMap p.index) (h : readProxy p x = some q) : IsMap q.index := by
  cases x with
  | null =>
    obtain rfl := Option.some.inj h
    exact hp
  | obj ms =>
    refine foldlM_inv (P := fun p => IsMap p.index) ?_ ms p q hp h
    intro a b a' ha hb
    unfold readProxyMember at hb
    simp only at hb
    split at hb
    · obtain ⟨v, -, rfl⟩ := Option.map_eq_some_iff.mp hb; exact ha
    split at hb
    · obtain ⟨v, -, rfl⟩ := Option.map_eq_some_iff.mp hb; exact ha
    split at hb
    · obtain ⟨v, -, rfl⟩ := Option.map_eq_some_iff.mp hb; exact ha
    split at hb
    · obtain ⟨v, -, rfl⟩ := Option.map_eq_some_iff.mp hb; exact ha
    split at hb
    · obtain ⟨v, hv, rfl⟩ := Option.map_eq_some_iff.mp hb; exact readIndex_isMap ha hv
    · obtain rfl := Option.some.inj hb; exact ha
  | _ => exact absurd h (by simp [readProxy])

theorem readElems_isMap : ∀ (xs : List JV) (old ps : List ProxyConf), (∀ p ∈ old, IsMap p.index) → readElems old xs = some ps → ∀ p ∈ ps, IsMap p.index
  | [], old, ps, _, h => by
    simp only [readElems, Option.some.injEq] at h
    subst h
    simp
  | x :: xs, old, ps, ho, h => by
    unfold readElems at h
    obtain ⟨p, hp, h⟩ := Option.bind_eq_some_iff.mp h
    obtain ⟨qs, hq, rfl⟩ := Option.map_eq_some_iff.mp h
    have h0 : IsMap (old.headD {}).index := by
      cases old with
      | nil => exact List.Pairwise.nil
      | cons a old => exact ho a (by simp)
    intro q hq'
    rcases List.mem_cons.mp hq' with rfl | hq'
    · exact readProxy_isMap h0 hp
    · exact readElems_isMap xs old.tail qs (fun p hp => ho p (List.mem_of_mem_tail hp)) hq q hq'

/-- The index expressions of a configuration file form maps. -/
theorem configText_maps {bs : Str} {c : Config} (h : configText bs = some c) : ∀ p ∈ c.proxies, IsMap p.index := by
  obtain ⟨x, -, h⟩ := Option.bind_eq_some_iff.mp h
  cases x with
  | null =>
    obtain rfl := Option.some.inj h
    simp
  | obj ms =>
    refine foldlM_inv (P := fun c : Config => ∀ p ∈ c.proxies, IsMap p.index) ?_ ms {} c (by simp) h
    intro a b a' ha hb
    unfold readConfigMember at hb
    simp only at hb
    split at hb
    · obtain ⟨v, hv, rfl⟩ := Option.map_eq_some_iff.mp hb
      generalize b.2 = y at hv
      cases y with
      | null => obtain rfl := Option.some.inj hv; simp
      | arr xs => exact readElems_isMap xs _ _ ha hv
      | _ => exact absurd hv (by simp [readProxies])
    split at hb
    · obtain ⟨v, -, rfl⟩ := Option.map_eq_some_iff.mp hb; exact ha
    split at hb
    · obtain ⟨v, -, rfl⟩ := Option.map_eq_some_iff.mp hb; exact ha
    · obtain rfl := Option.some.inj hb; exact ha
  | _ => exact absurd h (by simp [readConfig])

/-- The type of an entry of `proxies`. -/
def Spec.gvrOf (p : ProxyConf) : GVR := ⟨p.group, p.version, p.resource⟩

theorem indexConf_ok : ∀ (ps : List ProxyConf) (m : List (GVR × List (Str × Str))), (∀ p ∈ ps, IsMap p.index) → ConfOK m →
    ConfOK (ps.foldl (fun m p => insertKV ⟨p.group, p.version, p.resource⟩ p.index m) m)
  | [], _, _, h => h
  | p :: ps, m, hp, h => by
    refine indexConf_ok ps _ (fun q hq => hp q (by simp [hq])) ⟨isMap_insertKV h.1, ?_⟩
    rintro ⟨g, l⟩ he
    rcases mem_insertKV he with he | he
    · rw [(Prod.mk.inj he).2]
      exact hp p (by simp)
    · exact h.2 _ he

theorem indexConf_lookup {g : GVR} : ∀ (ps : List ProxyConf) (m : List (GVR × List (Str × Str))), (∀ p ∈ ps, gvrOf p ≠ g) →
    lookup g (ps.foldl (fun m p => insertKV ⟨p.group, p.version, p.resource⟩ p.index m) m) = lookup g m
  | [], _, _ => rfl
  | p :: ps, m, h => by
    rw [List.foldl_cons, indexConf_lookup ps _ fun q hq => h q (by simp [hq])]
    rw [lookup_insertKV, if_neg]
    exact h p (by simp)

/-- The last entry of a type counts. -/
theorem confAt_last {c : Config} {pre post : List ProxyConf} {p : ProxyConf} (h : c.proxies = pre ++ p :: post) (hl : ∀ q ∈ post, gvrOf q ≠ gvrOf p) :
    lookup (gvrOf p) c.indexConf = some p.index ∧ confAt c.indexConf (gvrOf p) = p.index := by
  have h1 : lookup (gvrOf p) c.indexConf = some p.index := by
    unfold Config.indexConf
    rw [h, List.foldl_append, List.foldl_cons, indexConf_lookup post _ hl]
    rw [lookup_insertKV, if_pos (show (⟨p.group, p.version, p.resource⟩ : GVR) = gvrOf p from rfl)]
  refine ⟨h1, ?_⟩
  unfold confAt
  rw [h1]
  rfl

end Ckube
