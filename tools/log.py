import json,re,glob,os
props={}
for l in open('/verif/properties.jsonl'):
    d=json.loads(l); props[d['id']]=d['title']
# theorems tightened (added or strengthened) because a mutant of the definition survived
T={
('SMO','updateAlpha'):'C118',('SMO','pass'):'C119',('SMO','loop'):'C119',('SMO','Run.init'):'C119',('SMO','State.init'):'C11_first_update',
('KMeans','argminNaN'):'C12_nan_wins',('KMeans','fitLoop'):'C15_no_clusters',('KMeans','initCentroids'):'C16_float_indices_refused',
('Metrics','categoricalAccuracy'):'C57',('Ensemble','EPS'):'C33_stopping',('Tree','gini'):'C122 C123',('Tree','gainOracle'):'C24_generator_choice',
('Ensemble','Obj.load'):'C35_after_load',('Ensemble','Obj.predict'):'C36 C75',('Tree','postPrune'):'C127 C128 C28',('Tree','prePrune'):'C127 C128 C28',
('Bayes','condProb'):'C38_unsmoothed',('Bayes','density'):'C40_underflow',('Bayes','label'):'C42_nan_is_one',('Bayes','meanVar'):'C77_parameters',
('Bayes','spodeColumn'):'C77_one_dependent',('Bayes','factor'):'C131_answers',('Bayes','factors'):'C131_answers',('GMM','initMixtureCoefficient'):'C71_refused',
('GMM','normalDensity'):'C17_density_normal C17_density_edges',('Activations','sigmoidDiff'):'C130_sigmoid',('LDA','getWV2'):'C45_v2_singular',
('LDA','fit'):'C82_one_class C82_lengths',('Getters','OptCls.default'):'C69_defaults',('Getters','KernCls.default'):'C69_defaults',
('IO','Version.tailKey'):'C68_pep440',('IO','Version.lt'):'C68_pep440',('IO','isDigit'):'C68_accept_iff',('IO','natOf'):'C68_accept_iff',('IO','parse'):'C68_value_errors',
('Training','getParams'):'C97_too_many',('Training','drawBarCC'):'C55_cc_full_iff',('Preprocess','broadcastLast'):'C99_single_column',
('Persist','toH'):'C109_save_succeeds C109_save_errors',('Persist','getField'):'C109_save_errors',('Persist','evalSave'):'C109_save_succeeds C109_save_errors',
('Persist','evalLoad'):'C109_malformed_values',('Persist','load'):'C109_missing_data_set',('Persist','lda'):'C109_missing_data_set C109_lda_reads_weights_only',
('LogReg','newtonStep'):'C84_newton_collinear C84_newton_few_samples',('Dataset','parseLabel'):'C66_other_words_refused',('Dataset','columnStrings'):'C106_mixed_refused',
('RBF','sqDist'):'C92_one_feature C92_one_column_centres',
}
for g in ['getOptimizer','getMetric','getKernel','getInitializer','getCriterion','getPruner','getLoss']: T[('Getters',g)]='C69_other_refused'
exec(open('/tmp/gen/log_extra.py').read()) if os.path.exists('/tmp/gen/log_extra.py') else None
EQ=['no behaviour change: the branch is unreachable from the API, or the edited expression is equal on every reachable state']
def key(d): return (d['file'],d['defn'],d['old'],d['new'])
re_={}
for f in ['/tmp/mut/rerun1.jsonl','/tmp/mut/rerun.jsonl']+sorted(glob.glob('/tmp/mut/rerun_*.jsonl')):
    if os.path.exists(f):
        for l in open(f):
            d=json.loads(l)
            if d['status']=='gone' and key(d) in re_: continue
            if f.endswith('rerun1.jsonl') and d['status']!='killed': continue
            re_[key(d)]=d
allthm=[]
for f in glob.glob('/verif/lean/Verif/Props/*.lean'):
    allthm+=re.findall(r'^theorem (C\d+_\S+)',open(f).read(),re.M)
def expand(s): 
    out=[]
    for p in s.split(): out+=[t for t in allthm if t.startswith(p)]
    return out
def claims(fs):
    ids=sorted({re.match(r'C\d+',t.split('.')[-1]).group(0) for t in fs if re.match(r'C\d+',t.split('.')[-1])})
    return '; '.join('%s: %s'%(i,props.get(i,'')) for i in ids[:6])
out=[];st={}
seen=set()
for f in sorted(glob.glob('/tmp/mut/out*.jsonl')):
    for l in open(f):
        d=json.loads(l)
        if d['status'] in('stillborn','timeout') or key(d) in seen: continue
        seen.add(key(d))
        m=d['file'].split('/')[-1][:-5]
        o=dict(definition=d['file'].replace('Verif/Model/','lean/Verif/Model/')+'::'+d['defn'],edit='%s  ==>  %s'%(d['old'],d['new']))
        if d['status']=='killed':
            o.update(claim_broken=claims(d['failed']),theorems_failed=[t.split('.')[-1] for t in d['failed']][:12],theorems_tightened=[],outcome='rejected')
        else:
            r=re_.get(key(d))
            tt=T.get((m,d['defn']))
            if r and r['status']=='killed':
                o.update(claim_broken=claims(r['failed']),theorems_failed=[],theorems_tightened=[t.split('.')[-1] for t in r['failed']][:12],outcome='accepted at first; after tightening rejected')
            elif r and r['status'] in('survived','example_only','lemma_only'):
                o.update(claim_broken='none',theorems_failed=[],theorems_tightened=[],outcome='accepted: '+EQ[0])
            elif tt and expand(tt):
                o.update(claim_broken=claims(expand(tt)),theorems_failed=[],theorems_tightened=expand(tt),outcome='accepted at first; after tightening rejected' if r else 'accepted at first; theorems added for it')
            else:
                o.update(claim_broken='none found',theorems_failed=[],theorems_tightened=[],outcome='accepted; '+('examples fail only' if d['status']=='example_only' else 'under review'))
        st[o['outcome'][:40]]=st.get(o['outcome'][:40],0)+1
        out.append(o)
hand=[]
if os.path.exists('/tmp/gen/hand.jsonl'): hand=[json.loads(l) for l in open('/tmp/gen/hand.jsonl')]
with open('/verif/seeded/LOG.jsonl','w') as g:
    for o in hand+out: g.write(json.dumps(o,ensure_ascii=False)+'\n')
print(len(out),st)
for o in out:
    if 'review' in o['outcome'] or 'examples fail' in o['outcome']: print(o['definition'],o['edit'][:150])
