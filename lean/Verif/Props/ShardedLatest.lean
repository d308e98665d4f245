import Verif.Props.ShardedMeters
import Verif.Props.Configurable
import Verif.Lemmas.SysService

set_option linter.unusedSectionVars false

/-!
# C149, for the configurable processor
-/

namespace Txstatsd
open Spec
section
variable [Rounding] {PF PM : Type} {N : Type} [LinearOrder N]

theorem latest_owner {t key name : Str} {owner : Str → N} {l : List Str} (hname : ∀ d ∈ l, ∀ v, Reading t key d v → metricName d = some name)
    {v : PyFloat} (h : Latest t key l v) : Latest t key (toServer (l.map fun d => (owner ((metricName d).getD []), d)) (owner name)) v := by
  obtain ⟨ys, hy⟩ := latest_collect h
  exact latest_of_collect (collect_owner owner name l hname hy)

/-- C149: on servers with the configurable processor, whose datagrams arrive in the order they were written: one server reports, in every
completed flush, the latest value written for a counter or gauge, and no other server ever receives a value of it. -/
theorem C149_latest (H : Hashing N) (clients : List N) (hne : clients ≠ []) (datas : List Str)
    (ops : PluginOps PF PM) (pre int : N → Str) (plugins : N → List PF) (w : N → World) (os : N → List Op)
    (hos : ∀ n ∈ clients, messages (os n) = toServer ((ShardedClient.init H clients).writes H datas).sent n)
    (key name : Str) (hname : ∀ t ∈ [c!"c", c!"g"], ∀ d ∈ datas, ∀ v, Reading t key d v → metricName d = some name) :
    let s := fun n => (runOps (configurable ops (pre n) (int n)) (w n) (CPState.init ops (plugins n)) (os n)).1
    let r := fun n interval percent => flush (configurable ops (pre n) (int n)) (w n) interval percent (s n)
    ∃ n ∈ clients,
      (∀ interval percent, (r n interval percent).2.2 = none →
        (∀ v, Latest c!"g" key (sendable datas) v →
          ⟨prefixed (pre n) key c!".value", .flt v, truncQ ((w n).clk (s n).ticks)⟩ ∈ (r n interval percent).2.1) ∧
        (∀ q z, Latest c!"c" key (sendable datas) (.fin q) → IntegerPart q z →
          ⟨prefixed (pre n) key c!".count", .int z, truncQ ((w n).clk (s n).ticks)⟩ ∈ (r n interval percent).2.1)) ∧
      ∀ m ∈ clients, m ≠ n → ∀ t ∈ [c!"c", c!"g"], ¬ Received t key (messages (os m)) := by
  intro s r
  obtain ⟨owner, h1, h2⟩ := sharded_sent H clients hne
  rw [h2] at hos
  have hsub : ∀ d ∈ sendable datas, d ∈ datas := fun d hd => (List.mem_filter.1 hd).1
  refine ⟨owner name, h1 name, ?_, ?_⟩
  · intro interval percent hok
    obtain ⟨cs, gs, tt, rest, e, -, -, hcs, hgs⟩ := C25_latest ops _ _ _ _ (os (owner name)) interval percent hok
    rw [hos _ (h1 name)] at hcs hgs
    have e' : (r (owner name) interval percent).2.1 = _ := e
    rw [e']
    constructor
    · intro v hv
      have := (hgs key v).2 (latest_owner (fun d hd => hname _ (by simp) d (hsub d hd)) hv)
      simp only [List.mem_append, List.mem_map]
      exact .inl (.inr ⟨_, this, rfl⟩)
    · intro q z hq hz
      have := (hcs key z).2 ⟨q, latest_owner (fun d hd => hname _ (by simp) d (hsub d hd)) hq, hz⟩
      simp only [List.mem_append, List.mem_map]
      exact .inl (.inl (.inl ⟨_, this, rfl⟩))
  · rintro m hm hmn t ht ⟨d, hd, x, hx⟩
    rw [hos m hm] at hd
    simp only [toServer, List.mem_map, List.mem_filter, decide_eq_true_eq, Prod.exists] at hd
    obtain ⟨n', d', ⟨⟨d'', hd'', heq⟩, hn'⟩, rfl⟩ := hd
    simp only [Prod.mk.injEq] at heq
    obtain ⟨e1, rfl⟩ := heq
    rw [hname t ht d'' (hsub d'' hd'') x hx, Option.getD_some] at e1
    exact hmn (by rw [← hn', e1])

end

section
attribute [local instance] ratRounding

/-- Two servers with a flush between the values of a gauge. -/
def exLatestShards : Nat → List Op
  | 5 => [.msg c!"b:4|g", .flush 1000 90, .msg c!"b:7|g"]
  | _ => []

/-- The hypotheses are met, and the latest value is reported. -/
example :
    (∀ n ∈ [0, 5], messages (exLatestShards n) =
      toServer ((ShardedClient.init slashHashing [0, 5]).writes slashHashing [c!"b:4|g", c!"b:7|g"]).sent n) ∧
    (∀ d ∈ [c!"b:4|g", c!"b:7|g"], metricName d = some c!"b") ∧
    (let s := (runOps (configurable noPlugins c!"p" c!"own.") exWorld (CPState.init noPlugins []) (exLatestShards 5)).1
     let r := flush (configurable noPlugins c!"p" c!"own.") exWorld 1000 90 s
     r.2.2 = none ∧ (r.2.1.filter fun d => d.name = c!"p.b.value").map (·.value) = [.flt (.fin 7)]) := by
  refine ⟨?_, by decide, by decide +kernel⟩
  have h1 := slash_owner c!"b" (by decide)
  rw [show slashHashing.hash c!"b" = 1 by decide, if_pos rfl] at h1
  have hs : ((ShardedClient.init slashHashing [0, 5]).writes slashHashing [c!"b:4|g", c!"b:7|g"]).sent =
      [(5, c!"b:4|g"), (5, c!"b:7|g")] := by
    unfold ShardedClient.init
    exact writes_two slashHashing _ h1 h1 (x' := c!"4|g") (y' := c!"7|g") (by decide) (by decide)
  rw [hs]
  intro n hn
  simp only [List.mem_cons, List.not_mem_nil, or_false] at hn
  rcases hn with rfl | rfl <;> decide

end
end Txstatsd
