"""Build seeded/LOG.jsonl from the outputs of the mutation runs (scratch directory given as argument)."""
import json, re, sys, glob, os
base = '/verif/lean/Verif/'
TIGHT = {'un16': ['the last example of Props/ProcessTree (all records of runtime ids are covered)'], 'z11': ['C80_strictly_argument'], 'z14': ['C79_no_stale_result'], 'z25': ['C108_guards'], 'v38': ['C86_ordinary_of_any_partial (stated for each kind of object without helpers)'], 'v42': ['Uses, Refers, NeedsFound, Reported (Spec/Registry: `definition`, not the helper of the model)'],
 
 'y20': ['C103_output_complete', 'C103_captured'], 'y22': ['C103_output_complete', 'C103_captured'],
 'y36': ['C07_effect_of_failed_assignment'], 'y51': ['C75_cleared_unusable'],
 'q28': ['C91_result_elsewhere', 'C91_result_nowhere'], 'q31': ['C91_result_elsewhere', 'C91_result_nowhere'],
 'q34': ['C91_result_elsewhere', 'C91_result_nowhere'], 'q45': ['C87_safe_counterexample'], 'q47': ['C87_objects_iff'],
 'a6': ['C102_read_elsewhere', 'C102_read_iff'], 'x24': ['C64_format'],
 'mx1': ['C91_fetch_elsewhere'],
 'ws10': ['C72_idle'], 'fe6': ['C08_exact'], 'fe9': ['C09_late_writers'], 'b6': ['C10_hex_value'],
 's13': ['C36_awaited_is_requested', 'C36_completable'], 'e9': ['C60_handled_while_registered_partial'],
 'a1': ['C43/C44 specification Spec/Analyzer (parameters stated without model helpers)'],
 'a13': ['C43/C44 specification Spec/Analyzer (import aliases stated without model helpers)'],
 'a18': ['C43/C44 specification Spec/Analyzer (loop variables stated without model helpers)'],
 'rg13': ['C52_guard_order_irrelevant'], 'rg28': ['C51_conflicting_version_refused'],
 'st1': ['C55_whitespace_and_line_ends'], 'd1': ['C64_calendar'], 'pa3': ['C69_address_equality'], 'pa15': ['C102_read_elsewhere'], 'pa12': ['C102_put']}
NOTE = {'on5': 'equivalent: `ready` sets the flag again', 't6': 'equivalent: pop from the empty list never happens (C115_always, before the edit), so whether it is noticed does not matter', 't11': 'equivalent on possible schedules: an exception of a call occurs inside of its execution, when the list is not empty (C115_recorded)', 'z31': 'harmless: these positions hold expressions, and only statements make normalization fail', 'z32': 'equivalent for the claims: data are refused by the next check (not a function)', 'z48': 'equivalent: the list is only used for membership', 'v3': 'C108 does not claim which exception a refused call raises (C29 does, in its own model)', 'v5': 'what guards get for addresses is not part of C108 (C30 covers it)',
        'v24': 'harmless: printed decorators never contain strictly_autonomous=True', 'v25': 'harmless: repeated keywords do not arise',
        'v44': 'equivalent: `pth` is assigned again afterwards', 'th3': 'a repair rather than a bug; the proof follows the steps of the code',
        'y3': 'harmless: the other delimiter is also read back', 'y12': 'harmless: printed decorators never contain strictly_autonomous=False',
        'y59': 'equivalent: descriptors consist of letters, digits and underscores', 'y62': 'harmless: these positions hold expressions, and only statements make normalization fail',
        'y64': 'harmless: a completed function always has compiled code',
        'q46': 'no claim concerns this argument: harmless', 'w3': 'equivalent: the list is only used for membership, and the crash history is a dictionary',
        'w6': 'which exception `with None` raises is not claimed', 'x27': 'repeated keywords are a SyntaxError in Python, so the case does not arise',
        'x28': 'printed decorators always have a list of guards, so the case does not arise',
        'sk11': 'equivalent for the claims: the step rule allows any portal anyway',
        'sk14': 'no listed claim says that get() removes its request; killed because the proof of the program follows its text',
        'sl5': 'C88-C90 remain true of this edit (the request is consumed earlier); only the proof script of the worker program had to follow the program text',
        'sv11': 'equivalent edit: a result that is ready always has its value (C88), so the branch is never taken',
        'sp4': 'first killed only through the proof of a lemma while C88 still held across portals; C88_own_portal_partial was added for it',
        'h6': 'equivalent edit: descriptors consist of letters, digits and underscores, which are all safe',
        'p8': 'caching only: not observable, killed by the exact specification', 'p30': 'caching only', 'dt10': 'equivalent for the claim: the other quotes still round-trip', 'p22': 'equivalent for packed arguments'}
def definition(file, old):
    s = open(base + file).read()
    i = s.find(old)
    if i < 0: return '?'
    m = None
    for m in re.finditer(r'^(?:private |protected |noncomputable )*(?:def|theorem|inductive|structure|abbrev)\s+(\S+)', s[:i + len(old)], re.M): pass
    return m.group(1) if m else '?'
out = []
for f in sorted(glob.glob(sys.argv[1] + '/o*.jsonl')):
    for l in open(f):
        d = json.loads(l)
        rid = d['id'].replace('_again', '')
        out.append({'id': d['id'], 'definition': definition(d['file'], d['old']), 'file': 'lean/Verif/' + d['file'],
          'edit': {'old': d['old'], 'new': d['new']}, 'claim_broken': d['claim'], 'survived': d['survived'],
          'theorems_failed': d['failed'][:25],
          'theorems_tightened': TIGHT.get(d['id'], []) if d['survived'] else [],
          **({'note': NOTE[rid]} if rid in NOTE else {}),
          **({'note': 'the same edit after tightening'} if d['id'].endswith('_again') else {})})
with open('/verif/seeded/LOG.jsonl', 'w') as fh:
    for o in out: fh.write(json.dumps(o, ensure_ascii=False) + '\n')
print(len(out), 'attempts,', sum(o['survived'] for o in out), 'survived first')
