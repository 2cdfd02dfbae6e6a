#include <stdio.h>
#include <stdlib.h>
#include <stdint.h>
#include <string.h>
typedef uint64_t u64; typedef uint32_t u32; typedef uint8_t u8;
static const u64 IV[8]={0x6a09e667f3bcc908ULL,0xbb67ae8584caa73bULL,0x3c6ef372fe94f82bULL,0xa54ff53a5f1d36f1ULL,0x510e527fade682d1ULL,0x9b05688c2b3e6c1fULL,0x1f83d9abfb41bd6bULL,0x5be0cd19137e2179ULL};
static const u8 S[12][16]={{0,1,2,3,4,5,6,7,8,9,10,11,12,13,14,15},{14,10,4,8,9,15,13,6,1,12,0,2,11,7,5,3},{11,8,12,0,5,2,15,13,10,14,3,6,7,1,9,4},{7,9,3,1,13,12,11,14,2,6,5,10,4,0,15,8},{9,0,5,7,2,4,10,15,14,1,11,12,6,8,3,13},{2,12,6,10,0,11,8,3,4,13,7,5,15,14,1,9},{12,5,1,15,14,13,4,10,0,7,6,3,9,2,8,11},{13,11,7,14,12,1,3,9,5,0,15,4,8,6,2,10},{6,15,14,9,11,3,0,8,12,2,13,7,1,4,10,5},{10,2,8,4,7,6,1,5,15,11,9,14,3,12,13,0},{0,1,2,3,4,5,6,7,8,9,10,11,12,13,14,15},{14,10,4,8,9,15,13,6,1,12,0,2,11,7,5,3}};
#define R(x,n) (((x)>>(n))|((x)<<(64-(n))))
static void comp(u64*h,const u8*b,u64 t,int last){u64 v[16],m[16];memcpy(m,b,128);for(int i=0;i<8;i++){v[i]=h[i];v[i+8]=IV[i];}v[12]^=t;if(last)v[14]=~v[14];
#define G(a,b,c,d,x,y) a+=b+x;d=R(d^a,32);c+=d;b=R(b^c,24);a+=b+y;d=R(d^a,16);c+=d;b=R(b^c,63);
for(int r=0;r<12;r++){const u8*s=S[r];
G(v[0],v[4],v[8],v[12],m[s[0]],m[s[1]])G(v[1],v[5],v[9],v[13],m[s[2]],m[s[3]])G(v[2],v[6],v[10],v[14],m[s[4]],m[s[5]])G(v[3],v[7],v[11],v[15],m[s[6]],m[s[7]])
G(v[0],v[5],v[10],v[15],m[s[8]],m[s[9]])G(v[1],v[6],v[11],v[12],m[s[10]],m[s[11]])G(v[2],v[7],v[8],v[13],m[s[12]],m[s[13]])G(v[3],v[4],v[9],v[14],m[s[14]],m[s[15]])}
for(int i=0;i<8;i++)h[i]^=v[i]^v[i+8];}
static void blake(u8*out,int n,const u8*in,size_t len){u64 h[8];memcpy(h,IV,64);h[0]^=0x01010000^n;size_t o=0;u8 b[128];while(len-o>128){comp(h,in+o,o+128,0);o+=128;}memset(b,0,128);memcpy(b,in+o,len-o);comp(h,b,len,1);memcpy(out,h,n);}
static void H(u8*out,u32 n,const u8*in,size_t len){u8*t=malloc(len+4);memcpy(t,&n,4);memcpy(t+4,in,len);if(n<=64){blake(out,n,t,len+4);return;}u8 v[64];blake(v,64,t,len+4);memcpy(out,v,32);u32 p=32;while(n-p>64){blake(v,64,v,64);memcpy(out+p,v,32);p+=32;}blake(v,n-p,v,64);memcpy(out+p,v,n-p);}
typedef struct{u64 v[128];}B;
#define M(a,b) (a+b+2*(u64)(u32)(a)*(u64)(u32)(b))
#define GB(a,b,c,d) a=M(a,b);d=R(d^a,32);c=M(c,d);b=R(b^c,24);a=M(a,b);d=R(d^a,16);c=M(c,d);b=R(b^c,63);
#define P16(v0,v1,v2,v3,v4,v5,v6,v7,v8,v9,va,vb,vc,vd,ve,vf) GB(v0,v4,v8,vc)GB(v1,v5,v9,vd)GB(v2,v6,va,ve)GB(v3,v7,vb,vf)GB(v0,v5,va,vf)GB(v1,v6,vb,vc)GB(v2,v7,v8,vd)GB(v3,v4,v9,ve)
static void fill(const B*x,const B*y,B*o,int xo){B r,q;for(int i=0;i<128;i++)r.v[i]=x->v[i]^y->v[i];q=r;if(xo)for(int i=0;i<128;i++)q.v[i]^=o->v[i];
u64*v=r.v;for(int i=0;i<8;i++){u64*w=v+16*i;P16(w[0],w[1],w[2],w[3],w[4],w[5],w[6],w[7],w[8],w[9],w[10],w[11],w[12],w[13],w[14],w[15])}
for(int i=0;i<8;i++){u64*w=v+2*i;P16(w[0],w[1],w[16],w[17],w[32],w[33],w[48],w[49],w[64],w[65],w[80],w[81],w[96],w[97],w[112],w[113])}
for(int i=0;i<128;i++)o->v[i]=q.v[i]^r.v[i];}
static int nb;static u8 buf[4096];static void put(const void*p,int n){memcpy(buf+nb,p,n);nb+=n;}static void p32(u32 x){put(&x,4);}
static int rdf(const char*f,u8*b){FILE*x=fopen(f,"rb");int n=fread(b,1,4096,x);fclose(x);return n;}
int main(int c,char**a){/* type secret salt t m p v out */u32 y=atoi(a[1]);u8 sec[4096],salt[4096];int ns=rdf(a[2],sec),nl=rdf(a[3],salt);u32 t=atoi(a[4]),m=atoi(a[5]),p=atoi(a[6]),ver=atoi(a[7]);
p32(p);p32(32);p32(m);p32(t);p32(ver);p32(y);p32(ns);put(sec,ns);p32(nl);put(salt,nl);p32(0);p32(0);u8 h0[72];blake(h0,64,buf,nb);
u32 sl=m/(4*p),ll=sl*4,mm=ll*p;B*mem=malloc((size_t)mm*1024);
for(u32 l=0;l<p;l++){for(u32 j=0;j<2;j++){memcpy(h0+64,&j,4);memcpy(h0+68,&l,4);H((u8*)&mem[l*ll+j],1024,h0,72);}}
B zero;memset(&zero,0,1024);
for(u32 r=0;r<t;r++)for(u32 s=0;s<4;s++)for(u32 l=0;l<p;l++){int di=(y==1)||(y==2&&r==0&&s<2);B in,ad;if(di){memset(&in,0,1024);in.v[0]=r;in.v[1]=l;in.v[2]=s;in.v[3]=mm;in.v[4]=t;in.v[5]=y;}
u32 st=0;if(r==0&&s==0){st=2;if(di){in.v[6]++;fill(&zero,&in,&ad,0);B z=ad;fill(&zero,&z,&ad,0);}}
for(u32 i=st;i<sl;i++){u32 cur=l*ll+s*sl+i;u32 prev=(s*sl+i)?cur-1:l*ll+ll-1;u64 ps;if(di){if(i%128==0){in.v[6]++;B z;fill(&zero,&in,&z,0);fill(&zero,&z,&ad,0);}ps=ad.v[i%128];}else ps=mem[prev].v[0];
u32 rl=(u32)(ps>>32)%p;if(r==0&&s==0)rl=l;int same=rl==l;u32 area;if(r==0){if(s==0)area=i-1;else area=same?s*sl+i-1:s*sl+(i==0?-1:0);}else area=same?ll-sl+i-1:ll-sl+(i==0?-1:0);
u64 x=(u32)ps;x=x*x>>32;x=area-1-((u64)area*x>>32);u32 sp=(r==0||s==3)?0:(s+1)*sl;u32 ref=(sp+x)%ll;
fill(&mem[prev],&mem[rl*ll+ref],&mem[cur],r>0&&ver==19);}}
B fin=mem[ll-1];for(u32 l=1;l<p;l++)for(int i=0;i<128;i++)fin.v[i]^=mem[l*ll+ll-1].v[i];u8 out[32];H(out,32,(u8*)&fin,1024);FILE*f=fopen(a[8],"wb");fwrite(out,1,32,f);fclose(f);return 0;}
